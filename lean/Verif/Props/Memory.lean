import Verif.Lemmas.MemoryTypes

/-!
Property C77: copies are independent of their originals, and all the memory is freed exactly once.

The specification: for each type a relation `R h a v s` says that in the heap `h` the object `a` has the value `v` and owns exactly the blocks `s`
(Lemmas/MemoryTypes.lean; a value contains the characters of the strings, the elements of the lists and the numbers, no addresses of owned blocks).
A user who works with objects `objs i` sees values `v i`; copying object `j` to `i` gives `i` the value of `j`, destroying `i` gives it the value of a new object.
-/

set_option linter.unusedSectionVars false
set_option linter.unusedSimpArgs false
set_option linter.unusedVariables false

namespace Verif.Own

/-- What a user does with the objects of one type. -/
inductive Op (ι : Type) where
  | copy (dst src : ι)
  | destroy (i : ι)

variable {ι α V : Type} [DecidableEq ι]

/-- The calls of the library. -/
noncomputable def run (C : Cls α) : List (Op ι) → (ι → α) → M (ι → α)
  | [], o => pure o
  | .copy i j :: ops, o => do let d ← C.copy (o i) (o j); run C ops (Function.update o i d)
  | .destroy i :: ops, o => do let d ← C.destroy (o i); run C ops (Function.update o i d)

/-- What the user expects. -/
def values (v0 : V) : List (Op ι) → (ι → V) → (ι → V)
  | [], v => v
  | .copy i j :: ops, v => values v0 ops (Function.update v i (v j))
  | .destroy i :: ops, v => values v0 ops (Function.update v i v0)

/-- No object is copied to itself. -/
def Op.fine : Op ι → Prop
  | .copy i j => i ≠ j
  | .destroy _ => True

/-- In the heap `h` the objects `o` have the values `v`, and own the blocks `s`, each block one owner. -/
structure Good (R : Rel α V) (h : Heap) (o : ι → α) (v : ι → V) (s : ι → Finset Nat) : Prop where
  rel : ∀ i, R h (o i) (v i) (s i)
  dis : ∀ i j, i ≠ j → Disjoint (s i) (s j)

/-- The blocks that do not belong to the objects are as they were, and everything that is allocated belongs to an object or was there before. -/
structure Clean (h h' : Heap) (s s' : ι → Finset Nat) : Prop where
  same : ∀ p, h.cells p ≠ none → (∀ i, p ∉ s i) → h'.cells p = h.cells p ∧ ∀ i, p ∉ s' i
  all : ∀ p, h'.cells p ≠ none ↔ (∃ i, p ∈ s' i) ∨ (h.cells p ≠ none ∧ ∀ i, p ∉ s i)

theorem Clean.trans {h h' k : Heap} {s s' t : ι → Finset Nat} (a : Clean h h' s s') (b : Clean h' k s' t) : Clean h k s t where
  same p hp hs := by
    obtain ⟨e, n⟩ := a.same p hp hs
    obtain ⟨e', n'⟩ := b.same p (by rw [e]; exact hp) n
    exact ⟨e'.trans e, n'⟩
  all p := by
    rw [b.all p]
    constructor
    · rintro (h | ⟨x, y⟩)
      · exact Or.inl h
      · rcases (a.all p).1 x with ⟨i, hi⟩ | q
        · exact absurd hi (y i)
        · exact Or.inr q
    · rintro (h | ⟨x, y⟩)
      · exact Or.inl h
      · exact Or.inr ⟨(a.all p).2 (Or.inr ⟨x, y⟩), (a.same p x y).2⟩

theorem Clean.refl {R : Rel α V} (l : Local R) {h : Heap} {o : ι → α} {v : ι → V} {s : ι → Finset Nat} (g : Good R h o v s) : Clean h h s s where
  same p _ hs := ⟨rfl, hs⟩
  all p := by
    constructor
    · intro hp
      by_cases e : ∃ i, p ∈ s i
      · exact Or.inl e
      · exact Or.inr ⟨hp, fun i hi => e ⟨i, hi⟩⟩
    · rintro (⟨i, hi⟩ | ⟨hp, _⟩)
      · exact l.live (g.rel i) p hi
      · exact hp

/-- Replacing the object `i` by one that was made after the old one was freed. -/
theorem replace {R : Rel α V} (l : Local R) {h h' : Heap} {o : ι → α} {v : ι → V} {s : ι → Finset Nat} (g : Good R h o v s) {i : ι} {d : α} {w : V} {t : Finset Nat}
    (n : New (h.minus (s i)) h' t) (r : R h' d w t) :
    Good R h' (Function.update o i d) (Function.update v i w) (Function.update s i t) ∧ Clean h h' s (Function.update s i t) := by
  have lt : ∀ j, ∀ p ∈ s j, p < h.next := fun j p hp => l.below (g.rel j) p hp
  have cell : ∀ p, p < h.next → p ∉ s i → h'.cells p = h.cells p := fun p hp hs => (n.old p hp).trans (minus_other _ _ hs)
  refine ⟨⟨fun j => ?_, fun j k hjk => ?_⟩, ⟨fun p hp hs => ?_, fun p => ?_⟩⟩
  · by_cases e : j = i
    · subst e; simp only [Function.update_self]; exact r
    · simp only [Function.update_of_ne e]
      exact l.frame (g.rel j) fun p hp => cell p (lt j p hp) (Finset.disjoint_left.1 (g.dis j i e) hp)
  · have above : ∀ j, Disjoint t (s j) := fun j => Finset.disjoint_left.2 fun p hp hs => absurd (lt j p hs) (not_lt.2 (n.above p hp))
    by_cases e : j = i
    · subst e
      rw [Function.update_self, Function.update_of_ne (Ne.symm hjk)]
      exact above k
    · rw [Function.update_of_ne e]
      by_cases e' : k = i
      · subst e'; rw [Function.update_self]; exact (above j).symm
      · rw [Function.update_of_ne e']; exact g.dis j k hjk
  · refine ⟨cell p (h.ok p hp) (hs i), fun j => ?_⟩
    by_cases e : j = i
    · subst e
      rw [Function.update_self]
      exact fun m => absurd (h.ok p hp) (not_lt.2 (n.above p m))
    · rw [Function.update_of_ne e]; exact hs j
  · constructor
    · intro hp
      by_cases e : p < h.next
      · have hi : p ∉ s i := fun m => hp ((n.old p e).trans (minus_in _ _ m))
        rw [cell p e hi] at hp
        by_cases ex : ∃ j, p ∈ s j
        · obtain ⟨j, hj⟩ := ex
          have : j ≠ i := by rintro rfl; exact hi hj
          exact Or.inl ⟨j, by rw [Function.update_of_ne this]; exact hj⟩
        · exact Or.inr ⟨hp, fun j hj => ex ⟨j, hj⟩⟩
      · exact Or.inl ⟨i, by rw [Function.update_self]; exact (n.fresh p (not_lt.1 e)).1 hp⟩
    · rintro (⟨j, hj⟩ | ⟨hp, hs⟩)
      · by_cases e : j = i
        · subst e
          rw [Function.update_self] at hj
          exact l.live r p hj
        · rw [Function.update_of_ne e] at hj
          rw [cell p (lt j p hj) (Finset.disjoint_left.1 (g.dis j i e) hj)]
          exact l.live (g.rel j) p hj
      · rw [cell p (h.ok p hp) (hs i)]; exact hp

/-- **C77** (all histories) Whatever objects of a type are copied and destroyed, in whatever order and how often: no memory is used that is not allocated, nothing is
freed twice, every object has the value the user expects, no block has two owners, everything that is allocated has an owner, and the rest of the heap is untouched. -/
def Safe (C : Cls α) (R : Rel α V) (v0 : V) : Prop :=
  ∀ (ι : Type) [DecidableEq ι] (ops : List (Op ι)), (∀ op ∈ ops, op.fine) → ∀ (h : Heap) (o : ι → α) (v : ι → V) (s : ι → Finset Nat), Good R h o v s →
    ∃ o' h' s', run C ops o h = some (o', h') ∧ Good R h' o' (values v0 ops v) s' ∧ Clean h h' s s'

theorem safe_of_lawful {C : Cls α} {R : Rel α V} {v0 : V} (L : Lawful C R v0) : Safe C R v0 := by
  intro ι _ ops
  induction ops with
  | nil => intro _ h o v s g; exact ⟨o, h, s, rfl, g, Clean.refl L.loc g⟩
  | cons op ops ih =>
    intro fine h o v s g
    have fine' : ∀ op ∈ ops, op.fine := fun x hx => fine x (List.mem_cons_of_mem _ hx)
    cases op with
    | copy i j =>
      have hij : i ≠ j := fine _ List.mem_cons_self
      obtain ⟨d, h1, t, e, n, r⟩ := L.copy h (o i) _ _ (o j) _ _ (g.rel i) (g.rel j) (g.dis j i (Ne.symm hij))
      obtain ⟨g1, c1⟩ := replace L.loc g n r
      obtain ⟨o', h', s', e', g', c'⟩ := ih fine' h1 _ _ _ g1
      exact ⟨o', h', s', by simp only [run]; rw [step e]; exact e', g', c1.trans c'⟩
    | destroy i =>
      obtain ⟨d, e, r⟩ := L.destroy h (o i) _ _ (g.rel i)
      obtain ⟨g1, c1⟩ := replace L.loc g (New.refl _) r
      obtain ⟨o', h', s', e', g', c'⟩ := ih fine' _ _ _ _ g1
      exact ⟨o', h', s', by simp only [run]; rw [step e]; exact e', g', c1.trans c'⟩

/-- **C77** All types of objects: materials, rectangles, cells and connections of non-uniform grids, the elements of layouts, layers, queues of powers (in clones), elements of
floorplans, matrices of floorplans, floorplans, dies, heat sinks, channels, stack elements, inspection points, sets of inspection points, dimensions (without the
array of pointers to cells: see `C77_dimensions_violated`), strings. -/
theorem C77_histories :
    Safe string RString none ∧ Safe material RMaterial (none, 0, 0, 0, 0) ∧
    Safe icElement RICElement ((none, 0, 0, 0, 0), (0, 0, 0, 0, 0, 0), (0, 0, 0, 0, 0, 0)) ∧
    Safe ncell RNCell ((none, 0, 0, 0, 0), (0, 0), (0, 0, 0, 0, 0, 0)) ∧ Safe connection RConnection ((), (0, 0, 0, 0, 0), 0) ∧
    Safe materialElement RMaterialElement (((none, 0, 0, 0, 0), []), 0) ∧ Safe layer RLayer ((none, none, (none, 0, 0, 0, 0), []), 0, 0, 0) ∧
    Safe queue RQueue [] ∧ Safe flpElement RFlpElement ((none, [], none), 0, 0) ∧ Safe flpMatrix RFlpMatrix none ∧
    Safe floorplan RFloorplan ((none, [], none, (0, none)), ()) ∧ Safe die RDie ((none, [], ((none, [], none, (0, none)), ())), 0, 0, 0, 0) ∧
    Safe heatSink RHeatSink sink0 ∧ Safe channel RChannel ((none, 0, 0, 0, 0), (0, 0, 0, 0), (0, 0, 0, 0), ⟨0, 0, 0, 0, 0, 0, 0⟩) ∧
    Safe stackElement RStackElement ((none, .other false none, none, none), 0, 0) ∧
    Safe ipoint RIPoint (none, (0, 0, 0), (0, 0, 0, 0), (0, 0), (none, none)) ∧ Safe output ROutput (([], [], []), ()) ∧ Safe dims RDims0 dims0 :=
  ⟨safe_of_lawful string_lawful, safe_of_lawful material_lawful, safe_of_lawful icElement_lawful, safe_of_lawful ncell_lawful, safe_of_lawful connection_lawful,
   safe_of_lawful materialElement_lawful, safe_of_lawful layer_lawful, safe_of_lawful queue_lawful, safe_of_lawful flpElement_lawful,
   safe_of_lawful flpMatrix_lawful, safe_of_lawful floorplan_lawful, safe_of_lawful die_lawful, safe_of_lawful heatSink_lawful, safe_of_lawful channel_lawful,
   safe_of_lawful stackElement_lawful, safe_of_lawful ipoint_lawful, safe_of_lawful output_lawful, safe_of_lawful dims_lawful⟩

/-- **C77** The typed lists of all these types. -/
theorem C77_lists :
    Safe (list material) (RList RMaterial) [] ∧ Safe (list icElement) (RList RICElement) [] ∧ Safe (list ncell) (RList RNCell) [] ∧
    Safe (list connection) (RList RConnection) [] ∧ Safe (list materialElement) (RList RMaterialElement) [] ∧ Safe (list layer) (RList RLayer) [] ∧
    Safe (list flpElement) (RList RFlpElement) [] ∧ Safe (list die) (RList RDie) [] ∧ Safe (list stackElement) (RList RStackElement) [] ∧
    Safe (list ipoint) (RList RIPoint) [] :=
  ⟨safe_of_lawful (list_lawful material_lawful), safe_of_lawful (list_lawful icElement_lawful), safe_of_lawful (list_lawful ncell_lawful),
   safe_of_lawful (list_lawful connection_lawful), safe_of_lawful (list_lawful materialElement_lawful), safe_of_lawful (list_lawful layer_lawful),
   safe_of_lawful (list_lawful flpElement_lawful), safe_of_lawful (list_lawful die_lawful), safe_of_lawful (list_lawful stackElement_lawful),
   safe_of_lawful (list_lawful ipoint_lawful)⟩

/-! ### Independence -/

/-- **C77** After a copy, whatever is done to the blocks of the copy, the original keeps its value, and conversely. -/
def Independent (C : Cls α) (R : Rel α V) : Prop :=
  ∀ (h : Heap) (d a : α) (w v : V) (t s : Finset Nat), R h d w t → R h a v s → Disjoint s t →
    ∃ d' h' s', C.copy d a h = some (d', h') ∧ R h' d' v s' ∧ R h' a v s ∧
      (∀ k : Heap, (∀ p ∉ s', k.cells p = h'.cells p) → R k a v s) ∧ (∀ k : Heap, (∀ p ∉ s, k.cells p = h'.cells p) → R k d' v s')

theorem independent {C : Cls α} {R : Rel α V} {v0 : V} (L : Lawful C R v0) : Independent C R := by
  intro h d a w v t s rd ra dj
  obtain ⟨d', h', s', e, n, r⟩ := L.copy h d w t a v s rd ra dj
  have ra' : R h' a v s := L.loc.new (L.loc.minus ra dj) n
  have dj' : Disjoint s s' := Finset.disjoint_left.2 fun p hp hs => absurd (L.loc.below ra p hp) (not_lt.2 (n.above p hs))
  exact ⟨d', h', s', e, r, ra', fun k hk => L.loc.frame ra' fun p hp => hk p (Finset.disjoint_left.1 dj' hp),
    fun k hk => L.loc.frame r fun p hp => hk p (Finset.disjoint_right.1 dj' hp)⟩

/-- **C77** All types. -/
theorem C77_independent :
    Independent string RString ∧ Independent material RMaterial ∧ Independent icElement RICElement ∧ Independent ncell RNCell ∧ Independent connection RConnection ∧
    Independent materialElement RMaterialElement ∧ Independent layer RLayer ∧ Independent queue RQueue ∧ Independent flpElement RFlpElement ∧
    Independent flpMatrix RFlpMatrix ∧ Independent floorplan RFloorplan ∧ Independent die RDie ∧ Independent heatSink RHeatSink ∧ Independent channel RChannel ∧
    Independent stackElement RStackElement ∧ Independent ipoint RIPoint ∧ Independent output ROutput ∧ Independent dims RDims0 ∧
    Independent (list material) (RList RMaterial) ∧ Independent (list layer) (RList RLayer) ∧ Independent (list die) (RList RDie) ∧
    Independent (list stackElement) (RList RStackElement) :=
  ⟨independent string_lawful, independent material_lawful, independent icElement_lawful, independent ncell_lawful, independent connection_lawful,
   independent materialElement_lawful, independent layer_lawful, independent queue_lawful, independent flpElement_lawful, independent flpMatrix_lawful,
   independent floorplan_lawful, independent die_lawful, independent heatSink_lawful, independent channel_lawful, independent stackElement_lawful,
   independent ipoint_lawful, independent output_lawful, independent dims_lawful, independent (list_lawful material_lawful),
   independent (list_lawful layer_lawful), independent (list_lawful die_lawful), independent (list_lawful stackElement_lawful)⟩

/-! ### Nothing is left -/

theorem destroyed {C : Cls α} {R : Rel α V} {v0 : V} (L : Lawful C R v0) : ∀ (is : List ι) (h : Heap) (o : ι → α) (v : ι → V) (s : ι → Finset Nat), Good R h o v s →
    ∃ o' h' s', run C (is.map Op.destroy) o h = some (o', h') ∧ Clean h h' s s' ∧ (∀ i ∈ is, s' i = ∅) ∧ ∀ i, s i = ∅ → s' i = ∅ := by
  intro is
  induction is with
  | nil => intro h o v s g; exact ⟨o, h, s, rfl, Clean.refl L.loc g, by simp, fun _ e => e⟩
  | cons i is ih =>
    intro h o v s g
    obtain ⟨d, e, r⟩ := L.destroy h (o i) _ _ (g.rel i)
    obtain ⟨g1, c1⟩ := replace L.loc g (New.refl _) r
    obtain ⟨o', h', s', e', c', z1, z2⟩ := ih _ _ _ _ g1
    refine ⟨o', h', s', by simp only [List.map_cons, run]; rw [step e]; exact e', c1.trans c', fun j hj => ?_, fun j hj => z2 j ?_⟩
    · rcases List.mem_cons.1 hj with rfl | m
      · exact z2 j (Function.update_self ..)
      · exact z1 j m
    · by_cases ej : j = i
      · subst ej; exact Function.update_self ..
      · rw [Function.update_of_ne ej]; exact hj

/-- **C77** Objects that are initialised, used in any way and then all destroyed (even more than once) leave the heap as it was: nothing is lost, nothing else is freed. -/
def NothingLeft (C : Cls α) : Prop :=
  ∀ (ι : Type) [DecidableEq ι] (ops : List (Op ι)), (∀ op ∈ ops, op.fine) → ∀ (is : List ι), (∀ i, i ∈ is) → ∀ h : Heap,
    ∃ o1 h1 o' h', run C ops (fun _ => C.init) h = some (o1, h1) ∧ run C (is.map Op.destroy) o1 h1 = some (o', h') ∧ ∀ p, h'.cells p = h.cells p

theorem nothingLeft {C : Cls α} {R : Rel α V} {v0 : V} (L : Lawful C R v0) : NothingLeft C := by
  intro ι _ ops fine is all h
  have g : Good R h (fun _ : ι => C.init) (fun _ => v0) (fun _ => ∅) := ⟨fun _ => L.init h, fun _ _ _ => by simp⟩
  obtain ⟨o1, h1, s1, e1, g1, c1⟩ := safe_of_lawful L ι ops fine h _ _ _ g
  obtain ⟨o2, h2, s2, e2, c2, z, _⟩ := destroyed L is h1 o1 _ s1 g1
  refine ⟨o1, h1, o2, h2, e1, e2, fun p => ?_⟩
  have c := c1.trans c2
  by_cases hp : h.cells p = none
  · rw [hp]
    by_contra q
    rcases (c.all p).1 q with ⟨i, hi⟩ | ⟨x, _⟩
    · rw [z i (all i)] at hi; simp at hi
    · exact x hp
  · exact (c.same p hp (by simp)).1

/-- **C77** for stack elements (with the dies, layers, floorplans and sinks they contain), floorplans, dies, inspection points and lists of them. -/
theorem C77_nothing_left :
    NothingLeft material ∧ NothingLeft layer ∧ NothingLeft floorplan ∧ NothingLeft die ∧ NothingLeft heatSink ∧ NothingLeft channel ∧ NothingLeft stackElement ∧
    NothingLeft output ∧ NothingLeft (list stackElement) ∧ NothingLeft (list die) ∧ NothingLeft (list layer) ∧ NothingLeft (list material) :=
  ⟨nothingLeft material_lawful, nothingLeft layer_lawful, nothingLeft floorplan_lawful, nothingLeft die_lawful, nothingLeft heatSink_lawful,
   nothingLeft channel_lawful, nothingLeft stackElement_lawful, nothingLeft output_lawful, nothingLeft (list_lawful stackElement_lawful),
   nothingLeft (list_lawful die_lawful), nothingLeft (list_lawful layer_lawful), nothingLeft (list_lawful material_lawful)⟩

/-! ### Clones -/

/-- **C77** A clone of an object of the heap is a new object with the same value; what the original owns is untouched, and freeing the clone gives back the heap; freeing
the original instead leaves the clone with its value. -/
def CloneSafe (C : Cls α) (R : Rel α V) : Prop :=
  ∀ (h : Heap) (p : Ptr) (v : Option V) (s : Finset Nat), ROwn R h p v s →
    ∃ q h' t, clone C p h = some (q, h') ∧ ROwn R h' q v t ∧ Disjoint s t ∧ (∀ x, h.cells x ≠ none → h'.cells x = h.cells x) ∧
      (∃ k, freeObj C q h' = some ((), k) ∧ ∀ x, k.cells x = h.cells x) ∧
      (∃ k, freeObj C p h' = some ((), k) ∧ ROwn R k q v t ∧ ∀ x, k.cells x ≠ none ↔ x ∈ t ∨ (h.cells x ≠ none ∧ x ∉ s))

theorem cloneSafe {C : Cls α} {R : Rel α V} {v0 : V} (L : Lawful C R v0) : CloneSafe C R := by
  intro h p v s r
  have lo := L.loc.own
  obtain ⟨q, h', t, e, n, r'⟩ := Dup.own L.loc L.dup h p v s r
  have lt : ∀ x ∈ s, x < h.next := lo.below r
  have old : ∀ x, h.cells x ≠ none → h'.cells x = h.cells x := fun x hx => n.old x (h.ok x hx)
  have dj : Disjoint s t := Finset.disjoint_left.2 fun x hx ht => absurd (lt x hx) (not_lt.2 (n.above x ht))
  have hn : ∀ x, h.next ≤ x → h.cells x = none := fun x hx => by by_contra q; exact absurd (h.ok x q) (not_lt.2 hx)
  refine ⟨q, h', t, e, r', dj, old, ?_, ?_⟩
  · obtain ⟨_, e2⟩ := L.dest.own h' q v t r'
    refine ⟨_, e2, fun x => ?_⟩
    by_cases hx : x < h.next
    · rw [minus_other _ _ (fun m => absurd hx (not_lt.2 (n.above x m))), n.old x hx]
    · rw [hn x (not_lt.1 hx)]
      by_cases m : x ∈ t
      · exact minus_in _ _ m
      · rw [minus_other _ _ m]
        by_contra q
        exact m ((n.fresh x (not_lt.1 hx)).1 q)
  · obtain ⟨_, e2⟩ := L.dest.own h' p v s (lo.new r n)
    refine ⟨_, e2, lo.minus r' dj.symm, fun x => ?_⟩
    by_cases m : x ∈ s
    · rw [minus_in _ _ m]
      simp [m, Finset.disjoint_left.1 dj m]
    · rw [minus_other _ _ m]
      by_cases hx : x < h.next
      · rw [n.old x hx]
        have : x ∉ t := fun m => absurd hx (not_lt.2 (n.above x m))
        simp [m, this]
      · rw [n.fresh x (not_lt.1 hx), hn x (not_lt.1 hx)]
        simp

/-- **C77** Clones of every type that has a `…_clone` function. -/
theorem C77_clones :
    CloneSafe material RMaterial ∧ CloneSafe icElement RICElement ∧ CloneSafe materialElement RMaterialElement ∧ CloneSafe layer RLayer ∧ CloneSafe queue RQueue ∧
    CloneSafe flpElement RFlpElement ∧ CloneSafe floorplan RFloorplan ∧ CloneSafe die RDie ∧ CloneSafe heatSink RHeatSink ∧ CloneSafe channel RChannel ∧
    CloneSafe stackElement RStackElement ∧ CloneSafe ipoint RIPoint ∧ CloneSafe dims RDims0 :=
  ⟨cloneSafe material_lawful, cloneSafe icElement_lawful, cloneSafe materialElement_lawful, cloneSafe layer_lawful, cloneSafe queue_lawful,
   cloneSafe flpElement_lawful, cloneSafe floorplan_lawful, cloneSafe die_lawful, cloneSafe heatSink_lawful, cloneSafe channel_lawful, cloneSafe stackElement_lawful,
   cloneSafe ipoint_lawful, cloneSafe dims_lawful⟩

/-! ### The stack description -/

abbrev StackDescV := (Option String × Option HeatSinkV × Option HeatSinkV × Option ChannelV × Option DimsV × List MaterialV × List LayerV × List DieV × List StackElementV) × Unit

/-- A stack description and what it owns: the channel that its stack elements refer to belongs to it, once; the dimensions may have the array of pointers. -/
def RStackDesc : Rel StackDesc StackDescV :=
  RVia (fun s => (s.file, s.top, s.bottom, s.channel, s.dims, s.materials, s.layers, s.dies, s.elements)) (fun _ => ())
    (RPair RString (RPair (ROwn RHeatSink) (RPair (ROwn RHeatSink) (RPair (ROwn RChannel) (RPair (ROwn RDims) (RPair (RList RMaterial) (RPair (RList RLayer)
      (RPair (RList RDie) (RList RStackElement)))))))))

theorem stack_local_dest : Local RStackDesc ∧ Dest RStackDesc stackDestroy := by
  have l9 := (list_lawful stackElement_lawful)
  have l8 := (list_lawful die_lawful)
  have l7 := (list_lawful layer_lawful)
  have l6 := (list_lawful material_lawful)
  have d5 : Dest (ROwn RDims) (freeObj dims) := Dest.own (C := dims) dims_dest
  have p8 := l8.loc.pair l9.loc
  have p7 := l7.loc.pair p8
  have p6 := l6.loc.pair p7
  have p5 := dims_local.own.pair p6
  have p4 := channel_lawful.loc.own.pair p5
  have p3 := heatSink_lawful.loc.own.pair p4
  have p2 := heatSink_lawful.loc.own.pair p3
  refine ⟨(string_local.pair p2).via, ?_⟩
  refine (string_dest.pair p2 (heatSink_lawful.dest.own.pair p3 (heatSink_lawful.dest.own.pair p4 (channel_lawful.dest.own.pair p5 (d5.pair p6
    (l6.dest.pair p7 (l7.dest.pair p8 (l8.dest.pair l9.loc l9.dest)))))))).via (fun _ => stackInit) fun a => ?_
  simp only [stackDestroy, list, bind_assoc]

/-- **C77** `stack_description_destroy` frees everything the description owns, each block once, and nothing else. -/
theorem C77_stack_destroyed (h : Heap) (d : StackDesc) (v : StackDescV) (s : Finset Nat) (r : RStackDesc h d v s) :
    ∃ d' h', stackDestroy d h = some (d', h') ∧ (∀ p ∈ s, h.cells p ≠ none ∧ h'.cells p = none) ∧ ∀ p ∉ s, h'.cells p = h.cells p := by
  obtain ⟨d', e⟩ := stack_local_dest.2 h d v s r
  exact ⟨d', _, e, fun p hp => ⟨stack_local_dest.1.live r p hp, minus_in _ _ hp⟩, fun p hp => minus_other _ _ hp⟩

/-! ### What is wrong -/

/-- **C77 is violated** by the dimensions of a non-uniform grid once the thermal data are built (`Cell_pointer` is set): whatever they contain, the copy shares the
array of pointers with the original, so destroying the copy and then the original frees it twice. -/
theorem C77_dimensions_violated (h : Heap) (d : DimsS) (v : DimsV) (s : Finset Nat) (r : RDims h d v s) (hp : d.pointers ≠ none) :
    ∃ d' h1 x h2, dims.copy dims.init d h = some (d', h1) ∧ dims.destroy d' h1 = some (x, h2) ∧ dims.destroy d h2 = none := by
  have l1 := list_lawful ncell_lawful
  have l2 := list_lawful connection_lawful
  obtain ⟨c, pl, nu, dx, dy, pp, cs, ks⟩ := d
  obtain ⟨⟨s1, t1, r1, ⟨s2, t2, r2, r3, dj2, rfl⟩, dj1, rfl⟩, hv⟩ := r
  simp only at hp r1 r2 r3
  rcases r2 with ⟨e, _⟩ | ⟨q, rfl, hb, rfl, hq⟩
  · exact absurd e hp
  have dj1' : Disjoint s1 t2 := Finset.disjoint_of_subset_right (Finset.subset_union_right) dj1
  have three : RPair RCellDims (RPair (RList RNCell) (RList RConnection)) h (c, cs, ks) (v.1.1, v.1.2.2.1, v.1.2.2.2) (s1 ∪ t2) := ⟨s1, t2, r1, r3, dj1', rfl⟩
  obtain ⟨d, k, u, e, n, u1, u2, ra, rb, du, rfl⟩ := cell_dup.pair cell_local (l1.loc.pair l2.loc) (l1.dup.pair l1.loc l2.loc l2.dup) _ _ _ _ three
  have qlt : q < h.next := h.ok q hq
  have qu : q ∉ u1 ∪ u2 := fun m => absurd qlt (not_lt.2 (n.above q m))
  have hk : k.cells q ≠ none := by rw [n.old q qlt]; exact hq
  have r' : RDims k ⟨d.1, pl, nu, dx, dy, some q, d.2.1, d.2.2⟩ v (u1 ∪ ({q} ∪ u2)) := by
    refine ⟨⟨u1, {q} ∪ u2, ra, ⟨{q}, u2, Or.inr ⟨q, rfl, hb, rfl, hk⟩, rb, ?_, rfl⟩, ?_, rfl⟩, hv⟩
    · simp only [Finset.disjoint_singleton_left]; exact fun m => qu (Finset.mem_union_right _ m)
    · simp only [Finset.disjoint_union_right, Finset.disjoint_singleton_right]
      exact ⟨fun m => qu (Finset.mem_union_left _ m), du⟩
  obtain ⟨x, ex⟩ := dims_dest _ _ _ _ r'
  refine ⟨_, k, x, _, ?_, ex, ?_⟩
  · have : dims.copy dims.init ⟨c, pl, nu, dx, dy, some q, cs, ks⟩ = (cellCopy cellInit c >>= fun y => (listCopy ncell listInit cs >>= fun y => listCopy connection listInit ks >>= fun z => pure (y, z)) >>=
        fun z => pure (y, z)) >>= fun d => pure ⟨d.1, pl, nu, dx, dy, some q, d.2.1, d.2.2⟩ := by
      simp only [dims, dimsCopy, dimsDestroy, dimsInit, cellDestroy, cellInit, arrayFree, listDestroy_init, pure_bind, bind_assoc]
    rw [this]
    exact (step e).trans rfl
  · have rc : RCellDims (k.minus (u1 ∪ ({q} ∪ u2))) c v.1.1 s1 := cell_local.minus (cell_local.new r1 n) (by
      have lt := cell_local.below r1
      simp only [Finset.disjoint_union_right, Finset.disjoint_singleton_right] at dj1 ⊢
      refine ⟨Finset.disjoint_left.2 fun y hy hu => ?_, dj1.1, Finset.disjoint_left.2 fun y hy hu => ?_⟩
      · exact absurd (lt y hy) (not_lt.2 (n.above y (Finset.mem_union_left _ hu)))
      · exact absurd (lt y hy) (not_lt.2 (n.above y (Finset.mem_union_right _ hu))))
    obtain ⟨y, ey⟩ := cell_dest _ _ _ _ rc
    show dimsDestroy _ _ = _
    unfold dimsDestroy
    rw [step ey]
    have : free q ((k.minus (u1 ∪ ({q} ∪ u2))).minus s1) = none := by
      unfold free
      rw [if_neg]
      rw [minus_minus, minus_in _ _ (by simp)]
      simp
    rw [M.bind_apply]
    show Option.bind (free q _) _ = none
    rw [this]
    rfl

/-- **C77 is violated** by heat sinks in one field: whatever the original has, the clone's pointer to the initialisation function of the plug-in is not set to
anything (`heat_sink_init` does not initialise it, `heat_sink_copy` does not copy it). -/
theorem C77_heat_sink_violated (h : Heap) (p : Nat) (a : HeatSink) (v : Option HeatSinkV) (s : Finset Nat) (ha : Has h p a) (r : ROwn RHeatSink h (some p) v s) :
    ∃ q h', ∃ b : HeatSink, clone heatSink (some p) h = some (some q, h') ∧ Has h' q b ∧ b.initFn = .unset := by
  have L := heatSink_lawful
  rcases r with ⟨e, _⟩ | ⟨q, a', w, t, e, rfl, hq, r, hn, rfl⟩
  · cases e
  obtain rfl : p = q := by injection e
  have n := plus_new h heatSink.init
  obtain ⟨x, k, u, ex, n', r'⟩ := L.dup _ _ _ _ (L.loc.new r n)
  have lt : p < h.next := h.ok p hq.live
  have e1 : Has (plus h heatSink.init) p a' := (n.old p lt).trans hq
  have hk : k.cells h.next ≠ none := by rw [n'.old _ (Nat.lt_succ_self _)]; exact (plus_has h heatSink.init).live
  refine ⟨h.next, k.set h.next ⟨HeatSink, x⟩ hk, x, ?_, set_has _ _ _ _, ?_⟩
  · simp only [clone]
    rw [step (alloc_eq _ _), step (load_eq e1), step ex, step (store_eq _ hk)]
    rfl
  · have : heatSink.copy heatSink.init a' = (do
        let m ← materialCopy materialInit a'.material
        let p ← stringCopy none a'.plugin
        let q ← stringCopy none a'.args
        pure ⟨a'.model, a'.htc, a'.ambient, a'.sprLength, a'.sprWidth, a'.sprHeight, m, p, q, a'.cellLength, a'.cellWidth, a'.nRows, a'.nColumns,
          a'.rowsBorder, a'.columnsBorder, .unset, a'.fn⟩ : M HeatSink) := by
      simp only [heatSink, sinkCopy, sinkDestroy, sinkInit, materialDestroy_init, stringDestroy, pure_bind]
    rw [this] at ex
    simp only [M.bind_apply, Option.bind_eq_some_iff] at ex
    obtain ⟨_, _, _, _, _, _, e⟩ := ex
    simp only [M.pure_apply, Option.some.injEq, Prod.mk.injEq] at e
    rw [← e.1]

/-! ### The hypotheses are met -/

/-- A heap with the given blocks. -/
def heapOf (l : List ((α : Type) × α)) : Heap := ⟨fun p => l[p]?, l.length, fun p hp => by
  by_contra e
  exact hp (List.getElem?_eq_none (not_lt.1 e))⟩

/-- Two materials, one with a name, and a history. -/
def exMat : Heap := heapOf [⟨String, "SILICON"⟩]

theorem exMat_good : Good (ι := Bool) RMaterial exMat (fun b => if b then ⟨some 0, 1, 2, 3, 4⟩ else materialInit)
    (fun b => if b then (some "SILICON", 1, 2, 3, 4) else (none, 0, 0, 0, 0)) (fun b => if b then {0} else ∅) where
  rel b := by
    cases b
    · exact material_lawful.init _
    · exact ⟨Or.inr ⟨0, "SILICON", rfl, rfl, rfl, rfl⟩, rfl⟩
  dis i j h := by cases i <;> cases j <;> simp at h ⊢

example : ∃ (o : Bool → Material) (h : Heap) (s : Bool → Finset Nat), run material [.copy false true, .destroy true] (fun b => if b then ⟨some 0, 1, 2, 3, 4⟩ else materialInit) exMat = some (o, h) ∧
    RMaterial h (o false) (some "SILICON", 1, 2, 3, 4) (s false) ∧ RMaterial h (o true) (none, 0, 0, 0, 0) (s true) := by
  obtain ⟨o, h, s, e, g, _⟩ := C77_histories.2.1 Bool [.copy false true, .destroy true] (by simp [Op.fine]) exMat _ _ _ exMat_good
  exact ⟨o, h, s, e, g.rel false, g.rel true⟩

/-- A stack description of a non-uniform grid, as after `thermal_data_build`: the file name, the channel, the dimensions with the heights of the layers and the array of
pointers, two materials in the list, and a stack element that refers to the channel. -/
def exDims : DimsS := ⟨⟨0, 0, 0, 0, 1, 2, some 4⟩, ⟨2, 1, 1, 2, 0, 1, 1⟩, 1, 1, 1, some 5, listInit, listInit⟩
def exChan : Channel := ⟨1, 1, 1, 0, 0, 1, 1, 0, ⟨1, 1, 1, 1, 1, 0, 300⟩, ⟨some 2, 1, 1, 1, 1⟩⟩
def exHeap : Heap := heapOf [⟨String, "a.stk"⟩, ⟨Channel, exChan⟩, ⟨String, "Si"⟩, ⟨DimsS, exDims⟩, ⟨List ℚ, [1, 2]⟩, ⟨List Nat, [8, 9]⟩,
  ⟨Node Material, ⟨⟨some 7, 1, 1, 1, 1⟩, none, some 8⟩⟩, ⟨String, "Si"⟩, ⟨Node Material, ⟨⟨some 9, 2, 2, 2, 2⟩, some 6, none⟩⟩, ⟨String, "Cu"⟩,
  ⟨Node StackElement, ⟨⟨some 11, .channel, some 1, none, none, 1, 0⟩, none, none⟩⟩, ⟨String, "c"⟩]
def exStack : StackDesc := ⟨some 0, none, none, some 1, some 3, ⟨2, some 6, some 8⟩, listInit, listInit, ⟨1, some 10, some 10⟩⟩
def exDimsV : DimsV := ((((2, some [1, 2]), 0, 0, 0, 0, 1), true, [], []), ⟨2, 1, 1, 2, 0, 1, 1⟩, 1, 1, 1)

theorem exDims_good : RDims exHeap exDims exDimsV {4, 5} :=
  ⟨⟨{4}, {5}, ⟨⟨rfl, Or.inr ⟨4, [1, 2], rfl, rfl, rfl, rfl, rfl⟩⟩, rfl⟩, ⟨{5}, ∅, Or.inr ⟨5, rfl, rfl, rfl, by simp [exHeap, heapOf]⟩,
    ⟨∅, ∅, init_list _, init_list _, by simp, by simp⟩, by simp, by simp⟩, by decide, by decide⟩, rfl⟩

theorem exStack_good : RStackDesc exHeap exStack ((some "a.stk", none, none,
      some ((some "Si", 1, 1, 1, 1), (1, 1, 1, 0), (1, 1, 0, 0), ⟨1, 1, 1, 1, 1, 0, 300⟩), some exDimsV,
      [(some "Si", 1, 1, 1, 1), (some "Cu", 2, 2, 2, 2)], [], [], [((some "c", .other true (some 1), none, none), 1, 0)]), ())
    {0, 1, 2, 3, 4, 5, 6, 7, 8, 9, 10, 11} := by
  have str : ∀ p s, Has exHeap p s → RString exHeap (some p) (some s) {p} := fun p s e => Or.inr ⟨p, s, rfl, rfl, rfl, e⟩
  refine ⟨⟨{0}, {1, 2, 3, 4, 5, 6, 7, 8, 9, 10, 11}, str 0 _ rfl, ⟨∅, {1, 2, 3, 4, 5, 6, 7, 8, 9, 10, 11}, init_own _,
    ⟨∅, {1, 2, 3, 4, 5, 6, 7, 8, 9, 10, 11}, init_own _, ⟨{1, 2}, {3, 4, 5, 6, 7, 8, 9, 10, 11}, ?_, ⟨{3, 4, 5}, {6, 7, 8, 9, 10, 11}, ?_,
    ⟨{6, 7, 8, 9}, {10, 11}, ⟨rfl, ?_⟩, ⟨∅, {10, 11}, init_list _, ⟨∅, {10, 11}, init_list _, ⟨rfl, ?_⟩, by decide, by decide⟩, by decide, by decide⟩,
    by decide, by decide⟩, by decide, by decide⟩, by decide, by decide⟩, by decide, by decide⟩, by decide, by decide⟩, by decide, by decide⟩, rfl⟩
  · exact Or.inr ⟨1, exChan, _, {2}, rfl, rfl, rfl, ⟨⟨str 2 _ rfl, rfl⟩, rfl⟩, by decide, by decide⟩
  · exact Or.inr ⟨3, exDims, exDimsV, {4, 5}, rfl, rfl, rfl, exDims_good, by decide, by decide⟩
  · exact ⟨6, _, _, {7}, {8, 9}, rfl, rfl, ⟨str 7 _ rfl, rfl⟩, ⟨8, _, _, {9}, ∅, rfl, rfl, ⟨str 9 _ rfl, rfl⟩, ⟨rfl, rfl, rfl⟩, by decide, by decide, by decide, by decide⟩,
      by decide, by decide, by decide, by decide⟩
  · exact ⟨10, _, _, {11}, ∅, rfl, rfl, ⟨⟨{11}, ∅, str 11 _ rfl, ⟨∅, ∅, ⟨rfl, rfl⟩, ⟨∅, ∅, init_own _, init_own _, by decide, by decide⟩, by decide, by decide⟩, by decide, by decide⟩, rfl⟩,
      ⟨rfl, rfl, rfl⟩, by decide, by decide, by decide, by decide⟩

example : ∃ d' h', stackDestroy exStack exHeap = some (d', h') ∧ ∀ p, h'.cells p = none := by
  obtain ⟨d', h', e, a, b⟩ := C77_stack_destroyed _ _ _ _ exStack_good
  refine ⟨d', h', e, fun p => ?_⟩
  by_cases hp : p ∈ ({0, 1, 2, 3, 4, 5, 6, 7, 8, 9, 10, 11} : Finset Nat)
  · exact (a p hp).2
  · rw [b p hp]
    by_contra q
    have := exHeap.ok p q
    have : p < 12 := this
    simp at hp
    omega

example : ∃ d' h1 x h2, dims.copy dims.init exDims exHeap = some (d', h1) ∧ dims.destroy d' h1 = some (x, h2) ∧ dims.destroy exDims h2 = none :=
  C77_dimensions_violated _ _ _ _ exDims_good (by simp [exDims])

/-- A heat sink whose plug-in was loaded: its clone has no initialisation function. -/
example : ∃ q h', ∃ b : HeatSink, clone heatSink (some 0) (heapOf [⟨HeatSink, { sinkInit (.ptr (some 7)) with model := 2, fn := some 8 }⟩]) = some (some q, h') ∧
    Has h' q b ∧ b.initFn = .unset :=
  C77_heat_sink_violated _ 0 { sinkInit (.ptr (some 7)) with model := 2, fn := some 8 }
    (some (((none, 0, 0, 0, 0), none, none), sinkRest { sinkInit (.ptr (some 7)) with model := 2, fn := some 8 })) {0} rfl
    (Or.inr ⟨0, _, _, ∅, rfl, rfl, rfl, ⟨init_pair (material_lawful.init _) (init_pair (init_string _) (init_string _)), rfl⟩, by simp, by simp⟩)

end Verif.Own
