import Verif.Model.ThermalMemory
import Verif.Lemmas.MemoryTypes
import Mathlib.Data.Finset.Union

/-! Laws of the memory of the thermal data. -/

set_option linter.unusedSectionVars false
set_option linter.unusedSimpArgs false
set_option linter.unusedVariables false

namespace Verif.Own

/-- Freeing some of the new blocks. -/
theorem New.minus {h h' : Heap} {s t : Finset Nat} (n : New h h' s) (ht : t ⊆ s) : New h (h'.minus t) (s \ t) where
  next := n.next
  old p hp := by
    rw [minus_other _ _ fun m => absurd (n.above p (ht m)) (by omega)]; exact n.old p hp
  fresh p hp := by
    by_cases m : p ∈ t
    · rw [minus_in _ _ m]; simp [m]
    · rw [minus_other _ _ m, n.fresh p hp]; simp [m]
  above p hp := n.above p (Finset.mem_sdiff.1 hp).1

theorem New.same {h h' : Heap} (n : New h h' ∅) (p : Nat) : h'.cells p = h.cells p := by
  by_cases e : p < h.next
  · exact n.old p e
  · have h1 : h.cells p = none := by
      by_contra hc; exact e (h.ok p hc)
    have h2 : h'.cells p = none := by
      by_contra hc; exact absurd ((n.fresh p (by omega)).1 hc) (by simp)
    rw [h1, h2]

/-! ### The blocks with names -/

/-- The address in a field. -/
def TData.addr (t : TData) (n : Name) : Nat := match t.ptr n with | .at p => p | _ => 0

/-- The fields `ns` point to different blocks; these and the blocks `sl` are all that is new since `h0`. -/
structure Inv (h0 h : Heap) (t : TData) (ns : Finset Name) (sl : Finset Nat) : Prop where
  ptr : ∀ n ∈ ns, t.ptr n = .at (t.addr n)
  inj : ∀ n ∈ ns, ∀ m ∈ ns, t.addr n = t.addr m → n = m
  dj : Disjoint (ns.image t.addr) sl
  new : New h0 h (ns.image t.addr ∪ sl)

theorem Inv.live {h0 h : Heap} {t : TData} {ns : Finset Name} {sl : Finset Nat} (I : Inv h0 h t ns sl) {p : Nat} (hp : p ∈ ns.image t.addr ∪ sl) : h.cells p ≠ none :=
  (I.new.fresh p (I.new.above p hp)).2 hp

theorem Inv.congr {h0 h : Heap} {t t' : TData} {ns : Finset Name} {sl : Finset Nat} (I : Inv h0 h t ns sl) (e : ∀ n ∈ ns, t'.ptr n = t.ptr n) : Inv h0 h t' ns sl := by
  have ea : ∀ n ∈ ns, t'.addr n = t.addr n := fun n hn => by unfold TData.addr; rw [e n hn]
  have ei : ns.image t'.addr = ns.image t.addr := Finset.image_congr fun n hn => ea n hn
  refine ⟨fun n hn => by rw [e n hn, ea n hn]; exact I.ptr n hn, fun n hn m hm he => I.inj n hn m hm (by rw [← ea n hn, ← ea m hm]; exact he), ?_, ?_⟩
  · rw [ei]; exact I.dj
  · rw [ei]; exact I.new

theorem set_same (t : TData) (n : Name) (v : Pv) : (t.set n v).ptr n = v := by show (if n = n then _ else _) = _; rw [if_pos rfl]
theorem set_diff (t : TData) {n m : Name} (v : Pv) (e : m ≠ n) : (t.set n v).ptr m = t.ptr m := by show (if m = n then _ else _) = _; rw [if_neg e]

theorem Inv.alloc {h0 h : Heap} {t : TData} {ns : Finset Name} {sl : Finset Nat} (I : Inv h0 h t ns sl) {n : Name} (hn : n ∉ ns) {β : Type} (x : β) :
    Inv h0 (plus h x) (t.set n (.at h.next)) (insert n ns) sl := by
  have ea : ∀ m ∈ ns, (t.set n (.at h.next)).addr m = t.addr m := fun m hm => by
    unfold TData.addr; rw [set_diff t _ (by rintro rfl; exact hn hm)]
  have en : (t.set n (.at h.next)).addr n = h.next := by unfold TData.addr; rw [set_same]
  have ei : (insert n ns).image (t.set n (.at h.next)).addr = insert h.next (ns.image t.addr) := by
    rw [Finset.image_insert, en, Finset.image_congr fun m hm => ea m hm]
  have lt : ∀ p ∈ ns.image t.addr ∪ sl, p < h.next := fun p hp => I.new.below p hp
  refine ⟨?_, ?_, ?_, ?_⟩
  · intro m hm
    rcases Finset.mem_insert.1 hm with e | hm'
    · rw [e, en, set_same]
    · rw [ea m hm', set_diff t _ (by rintro rfl; exact hn hm')]; exact I.ptr m hm'
  · intro m hm k hk e
    rcases Finset.mem_insert.1 hm with h1 | h1 <;> rcases Finset.mem_insert.1 hk with h2 | h2
    · rw [h1, h2]
    · rw [h1, en, ea k h2] at e
      have := lt (t.addr k) (Finset.mem_union_left _ (Finset.mem_image_of_mem _ h2))
      omega
    · rw [h2, en, ea m h1] at e
      have := lt (t.addr m) (Finset.mem_union_left _ (Finset.mem_image_of_mem _ h1))
      omega
    · rw [ea m h1, ea k h2] at e; exact I.inj m h1 k h2 e
  · rw [ei]
    refine Finset.disjoint_insert_left.2 ⟨fun m => ?_, I.dj⟩
    have := lt _ (Finset.mem_union_right _ m); omega
  · rw [ei]
    have := I.new.trans (plus_new h x)
    rwa [show insert h.next (ns.image t.addr) ∪ sl = (ns.image t.addr ∪ sl) ∪ {h.next} by ext p; simp [or_assoc, or_comm, or_left_comm]]

theorem Inv.free {h0 h : Heap} {t : TData} {ns : Finset Name} {sl : Finset Nat} (I : Inv h0 h t ns sl) {n : Name} (hn : n ∈ ns) :
    freePv (t.ptr n) h = some ((), h.minus {t.addr n}) ∧ Inv h0 (h.minus {t.addr n}) t (ns.erase n) sl := by
  have hm : t.addr n ∈ ns.image t.addr := Finset.mem_image_of_mem _ hn
  constructor
  · rw [I.ptr n hn]; exact free_eq (I.live (Finset.mem_union_left _ hm))
  · have ei : (ns.erase n).image t.addr = ns.image t.addr \ {t.addr n} := by
      ext p
      simp only [Finset.mem_image, Finset.mem_erase, Finset.mem_sdiff, Finset.mem_singleton]
      constructor
      · rintro ⟨m, ⟨h1, h2⟩, rfl⟩; exact ⟨⟨m, h2, rfl⟩, fun e => h1 (I.inj m h2 n hn e)⟩
      · rintro ⟨⟨m, h2, rfl⟩, h1⟩; exact ⟨m, ⟨fun e => h1 (by rw [e]), h2⟩, rfl⟩
    refine ⟨fun m hm => I.ptr m (Finset.mem_of_mem_erase hm), fun m hm k hk => I.inj m (Finset.mem_of_mem_erase hm) k (Finset.mem_of_mem_erase hk), ?_, ?_⟩
    · rw [ei]; exact Finset.disjoint_of_subset_left Finset.sdiff_subset I.dj
    · have := I.new.minus (t := {t.addr n}) (by intro p hp; rw [Finset.mem_singleton.1 hp]; exact Finset.mem_union_left _ hm)
      have nsl : t.addr n ∉ sl := Finset.disjoint_left.1 I.dj hm
      rw [ei]
      rwa [show (ns.image t.addr \ {t.addr n}) ∪ sl = (ns.image t.addr ∪ sl) \ {t.addr n} by
        ext p
        simp only [Finset.mem_union, Finset.mem_sdiff, Finset.mem_singleton]
        constructor
        · rintro (⟨h1, h2⟩ | h1)
          · exact ⟨Or.inl h1, h2⟩
          · exact ⟨Or.inr h1, fun e => nsl (e ▸ h1)⟩
        · rintro ⟨h1 | h1, h2⟩
          · exact Or.inl ⟨h1, h2⟩
          · exact Or.inr h1]

theorem Inv.freeAll {h0 : Heap} {t : TData} {sl : Finset Nat} : ∀ {fs : List Name} {h : Heap} {ns : Finset Name}, Inv h0 h t ns sl → fs.Nodup → (∀ n ∈ fs, n ∈ ns) →
    ∃ h', Own.freeAll t fs h = some ((), h') ∧ Inv h0 h' t (ns \ fs.toFinset) sl ∧ ∀ p, (∀ n ∈ fs, p ≠ t.addr n) → h'.cells p = h.cells p := by
  intro fs
  induction fs with
  | nil => intro h ns I _ _; exact ⟨h, rfl, by simpa using I, fun _ _ => rfl⟩
  | cons n fs ih =>
    intro h ns I nd sub
    obtain ⟨e, I'⟩ := I.free (sub n List.mem_cons_self)
    obtain ⟨hn, nd'⟩ := List.nodup_cons.1 nd
    obtain ⟨h', e', I'', fr⟩ := ih I' nd' fun m hm => Finset.mem_erase.2 ⟨by rintro rfl; exact hn hm, sub m (List.mem_cons_of_mem _ hm)⟩
    refine ⟨h', by rw [Own.freeAll, step e]; exact e', ?_, ?_⟩
    · rwa [show ns \ (n :: fs).toFinset = ns.erase n \ fs.toFinset by ext m; simp [and_assoc, and_comm, and_left_comm]]
    · intro p hp
      rw [fr p fun m hm => hp m (List.mem_cons_of_mem _ hm), minus_other _ _ (by simpa using hp n List.mem_cons_self)]

/-! ### Sequences of allocations -/

/-- At each allocation that can fail, exactly what was allocated before (the names `pre` and those before in the table) is freed. -/
def Wf : List Name → List (Name × Option (List Name)) → Prop
  | _, [] => True
  | pre, (n, o) :: l => n ∉ pre ∧ (∀ fs, o = some fs → fs.Perm pre) ∧ Wf (pre ++ [n]) l

theorem Inv.table {h0 : Heap} {sl : Finset Nat} {ok : Name → Bool} {ns : Finset Name} : ∀ {l : List (Name × Option (List Name))} {pre : List Name} {h : Heap} {t : TData},
    Inv h0 h t (ns ∪ pre.toFinset) sl → pre.Nodup → (∀ n ∈ pre, n ∉ ns) → (∀ e ∈ l, e.1 ∉ ns) → Wf pre l →
    ∃ b t' h', allocTable ok l t h = some ((b, t'), h') ∧ t'.nLayers = t.nLayers ∧ t'.factored = t.factored ∧ (∀ n, (∀ e ∈ l, e.1 ≠ n) → t'.ptr n = t.ptr n) ∧
      (∀ p ∈ ns.image t.addr ∪ sl, h'.cells p = h.cells p) ∧
      (b = true → Inv h0 h' t' (ns ∪ (pre ++ l.map Prod.fst).toFinset) sl) ∧ (b = false → Inv h0 h' t' ns sl) ∧
      (b = true ↔ ∀ e ∈ l, e.2 ≠ none → ok e.1 = true) ∧ (b = false → ∀ n ∈ pre, t'.ptr n = t.ptr n ∧ h'.cells (t.addr n) = none) := by
  intro l
  induction l with
  | nil =>
    intro pre h t I nd dn ds wf
    refine ⟨true, t, h, rfl, rfl, rfl, fun _ _ => rfl, fun _ _ => rfl, fun _ => by simpa using I, fun e => (by cases e), by simp, fun e => (by cases e)⟩
  | cons a l ih =>
    obtain ⟨n, o⟩ := a
    intro pre h t I nd dn ds wf
    obtain ⟨hn, hp, wf'⟩ := wf
    have nns : n ∉ ns := ds _ List.mem_cons_self
    by_cases hf : ∃ fs, o = some fs ∧ ok n = false
    · obtain ⟨fs, rfl, ho⟩ := hf
      have perm := hp fs rfl
      have I1 : Inv h0 h (t.set n .null) (ns ∪ pre.toFinset) sl := I.congr fun m hm => set_diff t _ (by
        rintro rfl
        rcases Finset.mem_union.1 hm with m' | m'
        · exact nns m'
        · exact hn (List.mem_toFinset.1 m'))
      have ea : ∀ m, m ≠ n → (t.set n .null).addr m = t.addr m := fun m e => by unfold TData.addr; rw [set_diff t _ e]
      obtain ⟨h', e, I', fr⟩ := I1.freeAll (fs := fs) (perm.nodup_iff.2 nd) fun m hm => Finset.mem_union_right _ (List.mem_toFinset.2 (perm.mem_iff.1 hm))
      have hset : (ns ∪ pre.toFinset) \ fs.toFinset = ns := by
        ext m
        simp only [Finset.mem_sdiff, Finset.mem_union, List.mem_toFinset, perm.mem_iff]
        constructor
        · rintro ⟨h1 | h1, h2⟩
          · exact h1
          · exact absurd h1 h2
        · exact fun h1 => ⟨Or.inl h1, fun h2 => dn m h2 h1⟩
      rw [hset] at I'
      have nep : ∀ m ∈ pre, m ≠ n := by rintro m hm rfl; exact hn hm
      refine ⟨false, t.set n .null, h', ?_, rfl, rfl, ?_, ?_, fun e => by (cases e), fun _ => I', ?_, ?_⟩
      · simp only [allocTable, ho]
        rw [step e]; rfl
      · exact fun m hm => set_diff t _ (hm _ List.mem_cons_self).symm
      · intro p hp
        refine fr p fun m hm => ?_
        have hm' : m ∈ pre := perm.mem_iff.1 hm
        rw [ea m (nep m hm')]
        rintro rfl
        rcases Finset.mem_union.1 hp with q | q
        · obtain ⟨k, hk, e⟩ := Finset.mem_image.1 q
          have := I.inj k (Finset.mem_union_left _ hk) m (Finset.mem_union_right _ (List.mem_toFinset.2 hm')) e
          exact dn m hm' (this ▸ hk)
        · exact Finset.disjoint_left.1 I.dj (Finset.mem_image_of_mem _ (Finset.mem_union_right _ (List.mem_toFinset.2 hm'))) q
      · constructor
        · intro e; cases e
        · intro e; have := e _ List.mem_cons_self (by simp); rw [ho] at this; cases this
      · intro _ m hm
        refine ⟨set_diff t _ (nep m hm), ?_⟩
        by_contra hc
        have hge : h0.next ≤ t.addr m := I.new.above _ (Finset.mem_union_left _ (Finset.mem_image_of_mem _ (Finset.mem_union_right _ (List.mem_toFinset.2 hm))))
        have := (I'.new.fresh _ hge).1 hc
        rcases Finset.mem_union.1 this with q | q
        · obtain ⟨k, hk, e⟩ := Finset.mem_image.1 q
          rw [ea k (by rintro rfl; exact nns hk)] at e
          have := I.inj k (Finset.mem_union_left _ hk) m (Finset.mem_union_right _ (List.mem_toFinset.2 hm)) e
          exact dn m hm (this ▸ hk)
        · exact Finset.disjoint_left.1 I.dj (Finset.mem_image_of_mem _ (Finset.mem_union_right _ (List.mem_toFinset.2 hm))) q
    · have nin : n ∉ ns ∪ pre.toFinset := by simp [nns, hn]
      have I1 := I.alloc nin ()
      have hset : insert n (ns ∪ pre.toFinset) = ns ∪ (pre ++ [n]).toFinset := by ext m; simp [or_comm, or_left_comm, or_assoc]
      rw [hset] at I1
      obtain ⟨b, t', h', e, e1, e2, e3, e4, e5, e6, e7, e8⟩ := ih I1 (by
          rw [List.nodup_append]; exact ⟨nd, by simp, by rintro m hm k hk rfl; exact hn (by rw [List.mem_singleton.1 hk] at hm; exact hm)⟩)
        (by intro m hm; rcases List.mem_append.1 hm with m' | m'
            · exact dn m m'
            · rw [List.mem_singleton.1 m']; exact nns)
        (fun e he => ds e (List.mem_cons_of_mem _ he)) wf'
      have ea : ∀ m, m ≠ n → (t.set n (.at h.next)).addr m = t.addr m := fun m e => by unfold TData.addr; rw [set_diff t _ e]
      have eimg : ns.image (t.set n (.at h.next)).addr = ns.image t.addr := Finset.image_congr fun m hm => ea m (by rintro rfl; exact nns hm)
      have hcode : allocTable ok ((n, o) :: l) t h = allocTable ok l (t.set n (.at h.next)) (plus h ()) := by
        cases o with
        | none => simp only [allocTable]; rw [step (alloc_eq _ _)]
        | some fs =>
          have : ok n = true := by
            cases hok : ok n with
            | true => rfl
            | false => exact absurd ⟨fs, rfl, hok⟩ hf
          simp only [allocTable, this]; rw [step (alloc_eq _ _)]
      refine ⟨b, t', h', by rw [hcode]; exact e, e1, e2, ?_, ?_, ?_, e6, ?_, ?_⟩
      · intro m hm
        rw [e3 m fun x hx => hm x (List.mem_cons_of_mem _ hx), set_diff t _ (hm _ List.mem_cons_self).symm]
      · intro p hp
        rw [e4 p (by rw [eimg]; exact hp)]
        refine (plus_new h ()).old p ?_
        refine I.new.below p ?_
        rcases Finset.mem_union.1 hp with q | q
        · exact Finset.mem_union_left _ (Finset.image_subset_image Finset.subset_union_left q)
        · exact Finset.mem_union_right _ q
      · intro hb; have := e5 hb; rwa [List.append_assoc] at this
      · rw [e7]
        constructor
        · intro hx y hy hne
          rcases List.mem_cons.1 hy with rfl | hy
          · cases o with
            | none => exact absurd rfl hne
            | some fs =>
              cases hok : ok n with
              | true => rfl
              | false => exact absurd ⟨fs, rfl, hok⟩ hf
          · exact hx y hy hne
        · exact fun hx y hy => hx y (List.mem_cons_of_mem _ hy)
      · intro hb m hm
        have := e8 hb m (List.mem_append_left _ hm)
        have hmn : m ≠ n := by rintro rfl; exact hn hm
        rw [set_diff t _ hmn, ea m hmn] at this
        exact this

/-! ### The array of layers -/

/-- The layers of an array have these values and own these blocks, no block twice. -/
structure RAll (h : Heap) (ls : List Layer) (vs : List LayerV) (f : Nat → Finset Nat) : Prop where
  len : ls.length = vs.length
  each : ∀ (i : Nat) (l : Layer) (v : LayerV), ls[i]? = some l → vs[i]? = some v → RLayer h l v (f i)
  dj : ∀ i j, i ≠ j → Disjoint (f i) (f j)
  out : ∀ i, ls.length ≤ i → f i = ∅

/-- All these blocks. -/
def own (n : Nat) (f : Nat → Finset Nat) : Finset Nat := (Finset.range n).biUnion f

theorem mem_own {n : Nat} {f : Nat → Finset Nat} {p : Nat} : p ∈ own n f ↔ ∃ i < n, p ∈ f i := by simp [own]

theorem RAll.frame {h h' : Heap} {ls : List Layer} {vs : List LayerV} {f : Nat → Finset Nat} (r : RAll h ls vs f)
    (e : ∀ p ∈ own ls.length f, h'.cells p = h.cells p) : RAll h' ls vs f :=
  ⟨r.len, fun i l v hl hv => layer_lawful.loc.frame (r.each i l v hl hv) fun p hp => e p (mem_own.2 ⟨i, by
    rw [List.getElem?_eq_some_iff] at hl; exact hl.1, hp⟩), r.dj, r.out⟩

/-- Replacing one layer. -/
theorem RAll.replace {h h' : Heap} {ls : List Layer} {vs : List LayerV} {f : Nat → Finset Nat} (r : RAll h ls vs f) {i : Nat} (hi : i < ls.length)
    {d : Layer} {v : LayerV} {s : Finset Nat} (rd : RLayer h' d v s) (e : ∀ j, j ≠ i → ∀ p ∈ f j, h'.cells p = h.cells p) (dj : ∀ j, j ≠ i → Disjoint s (f j)) :
    RAll h' (ls.set i d) (vs.set i v) (Function.update f i s) := by
  refine ⟨by simp [r.len], ?_, ?_, ?_⟩
  · intro j l w hl hw
    by_cases hj : j = i
    · subst hj
      rw [List.getElem?_set_self hi] at hl
      rw [List.getElem?_set_self (by rw [← r.len]; exact hi)] at hw
      obtain rfl : d = l := by injection hl
      obtain rfl : v = w := by injection hw
      rw [Function.update_self]; exact rd
    · rw [List.getElem?_set_ne (Ne.symm hj)] at hl hw
      rw [Function.update_of_ne hj]
      exact layer_lawful.loc.frame (r.each j l w hl hw) (e j hj)
  · intro j k hjk
    by_cases hj : j = i
    · subst hj
      rw [Function.update_self, Function.update_of_ne (Ne.symm hjk)]; exact dj k (Ne.symm hjk)
    · by_cases hk : k = i
      · subst hk
        rw [Function.update_self, Function.update_of_ne hj]; exact (dj j hj).symm
      · rw [Function.update_of_ne hj, Function.update_of_ne hk]; exact r.dj j k hjk
  · intro j hj
    rw [List.length_set] at hj
    rw [Function.update_of_ne (by omega)]; exact r.out j hj

theorem own_update {n : Nat} {f : Nat → Finset Nat} {i : Nat} (hi : i < n) (s : Finset Nat) (dj : ∀ j, j ≠ i → Disjoint (f i) (f j)) :
    own n (Function.update f i s) = (own n f \ f i) ∪ s := by
  ext p
  simp only [mem_own, Finset.mem_union, Finset.mem_sdiff]
  constructor
  · rintro ⟨j, hj, hp⟩
    by_cases e : j = i
    · subst e; rw [Function.update_self] at hp; exact Or.inr hp
    · rw [Function.update_of_ne e] at hp
      exact Or.inl ⟨⟨j, hj, hp⟩, fun m => Finset.disjoint_left.1 (dj j e) m hp⟩
  · rintro (⟨⟨j, hj, hp⟩, hn⟩ | hp)
    · exact ⟨j, hj, by rw [Function.update_of_ne (by rintro rfl; exact hn hp)]; exact hp⟩
    · exact ⟨i, hi, by rw [Function.update_self]; exact hp⟩

/-- The array at `q`, together with `others`, is what is new. -/
structure Arr (h0 h : Heap) (q : Nat) (ls : List Layer) (vs : List LayerV) (f : Nat → Finset Nat) (others : Finset Nat) : Prop where
  has : Has h q ls
  all : RAll h ls vs f
  q_in : q ∈ others
  dj : Disjoint others (own ls.length f)
  new : New h0 h (others ∪ own ls.length f)

/-- A source: a layer of the stack description, which exists since before `h0`. -/
theorem Arr.copyInto {h0 h : Heap} {q : Nat} {ls : List Layer} {vs : List LayerV} {f : Nat → Finset Nat} {others : Finset Nat} (A : Arr h0 h q ls vs f others)
    {i : Nat} (hi : i < ls.length) {a : Layer} {v : LayerV} {s : Finset Nat} (ra : RLayer h a v s) (ds : Disjoint s (own ls.length f)) (qs : q ∉ s) :
    ∃ h' ls' f', Own.copyInto q i a h = some ((), h') ∧ ls'.length = ls.length ∧ Arr h0 h' q ls' (vs.set i v) f' others ∧
      ∀ p, p ≠ q → p ∉ own ls.length f → p < h.next → h'.cells p = h.cells p := by
  have hv : i < vs.length := by rw [← A.all.len]; exact hi
  have rd := A.all.each i ls[i] vs[i] (List.getElem?_eq_getElem hi) (List.getElem?_eq_getElem hv)
  have fsub : f i ⊆ own ls.length f := fun p hp => mem_own.2 ⟨i, hi, hp⟩
  have qn : q ∉ own ls.length f := Finset.disjoint_left.1 A.dj A.q_in
  obtain ⟨d', k, s', e, n, r'⟩ := layer_lawful.copy h ls[i] vs[i] (f i) a v s rd ra (Finset.disjoint_of_subset_right fsub ds)
  have hq : q < h.next := h.ok q A.has.live
  have kq : k.cells q ≠ none := by
    rw [n.old q hq, minus_other _ _ fun m => qn (fsub m)]; exact A.has.live
  have nk : New h0 k ((others ∪ own ls.length f) \ f i ∪ s') := (A.new.minus (t := f i) fun p hp => Finset.mem_union_right _ (fsub hp)).trans n
  have s'new : ∀ p ∈ s', h.next ≤ p := n.above
  have lt : ∀ p ∈ others ∪ own ls.length f, p < h.next := fun p hp => A.new.below p hp
  have qs' : q ∉ s' := fun m => absurd (s'new q m) (by omega)
  have hset : (others ∪ own ls.length f) \ f i ∪ s' = others ∪ own ls.length (Function.update f i s') := by
    rw [own_update hi s' fun j hj => A.all.dj i j (Ne.symm hj)]
    ext p
    simp only [Finset.mem_union, Finset.mem_sdiff]
    constructor
    · rintro (⟨h1 | h1, h2⟩ | h1)
      · exact Or.inl h1
      · exact Or.inr (Or.inl ⟨h1, h2⟩)
      · exact Or.inr (Or.inr h1)
    · rintro (h1 | ⟨h1, h2⟩ | h1)
      · exact Or.inl ⟨Or.inl h1, fun m => Finset.disjoint_left.1 A.dj h1 (fsub m)⟩
      · exact Or.inl ⟨Or.inr h1, h2⟩
      · exact Or.inr h1
  refine ⟨k.set q ⟨List Layer, ls.set i d'⟩ kq, ls.set i d', Function.update f i s', ?_, by simp, ?_, ?_⟩
  · unfold Own.copyInto
    rw [step (load_eq A.has)]
    simp only [List.getElem?_eq_getElem hi]
    rw [step (show layerCopy ls[i] a h = some (d', k) from e)]
    exact store_eq _ kq
  · refine ⟨set_has _ _ _ _, ?_, A.q_in, ?_, ?_⟩
    · refine A.all.replace hi (layer_lawful.loc.frame r' fun p hp => set_other _ _ _ _ (by rintro rfl; exact qs' hp)) ?_ ?_
      · intro j hj p hp
        have hjl : j < ls.length := by
          by_contra hc; rw [A.all.out j (by omega)] at hp; simp at hp
        have hpo : p ∈ own ls.length f := mem_own.2 ⟨j, hjl, hp⟩
        rw [set_other _ _ _ _ (by rintro rfl; exact qn hpo), n.old p (lt p (Finset.mem_union_right _ hpo)),
          minus_other _ _ fun m => Finset.disjoint_left.1 (A.all.dj i j (Ne.symm hj)) m hp]
      · intro j hj
        refine Finset.disjoint_left.2 fun p hp hpj => ?_
        have hjl : j < ls.length := by
          by_contra hc; rw [A.all.out j (by omega)] at hpj; simp at hpj
        have := s'new p hp
        have := lt p (Finset.mem_union_right _ (mem_own.2 ⟨j, hjl, hpj⟩))
        omega
    · rw [List.length_set, own_update hi s' fun j hj => A.all.dj i j (Ne.symm hj)]
      refine Finset.disjoint_left.2 fun p hp hpj => ?_
      rcases Finset.mem_union.1 hpj with m | m
      · exact Finset.disjoint_left.1 A.dj hp (Finset.mem_sdiff.1 m).1
      · have := s'new p m
        have := lt p (Finset.mem_union_left _ hp)
        omega
    · rw [List.length_set, ← hset]
      exact nk.set q _ kq (by rw [hset]; exact Finset.mem_union_left _ A.q_in)
  · intro p h1 h2 h3
    rw [set_other _ _ _ _ h1, n.old p h3, minus_other _ _ fun m => h2 (fsub m)]

/-- A block that the filling of the array does not touch. -/
def Kept (h0 : Heap) (q : Nat) (others : Finset Nat) (p : Nat) : Prop := p < h0.next ∨ (p ∈ others ∧ p ≠ q)

/-- A layer to be copied, and its value. -/
def Src (h0 h : Heap) (q : Nat) (others : Finset Nat) (a : Layer) (v : LayerV) : Prop := ∃ s, RLayer h a v s ∧ ∀ p ∈ s, Kept h0 q others p

theorem Src.frame {h0 h h' : Heap} {q : Nat} {others : Finset Nat} {a : Layer} {v : LayerV} (r : Src h0 h q others a v)
    (e : ∀ p, Kept h0 q others p → h'.cells p = h.cells p) : Src h0 h' q others a v := by
  obtain ⟨s, r, k⟩ := r
  exact ⟨s, layer_lawful.loc.frame r fun p hp => e p (k p hp), k⟩

theorem Arr.kept {h0 h : Heap} {q : Nat} {ls : List Layer} {vs : List LayerV} {f : Nat → Finset Nat} {others : Finset Nat} (A : Arr h0 h q ls vs f others) {p : Nat}
    (k : Kept h0 q others p) : p ≠ q ∧ p ∉ own ls.length f ∧ p < h.next := by
  rcases k with k | ⟨k1, k2⟩
  · refine ⟨fun e => ?_, fun m => ?_, lt_of_lt_of_le k A.new.next⟩
    · have := A.new.above q (Finset.mem_union_left _ A.q_in); omega
    · have := A.new.above p (Finset.mem_union_right _ m); omega
  · exact ⟨k2, Finset.disjoint_left.1 A.dj k1, A.new.below p (Finset.mem_union_left _ k1)⟩

/-- Values at consecutive positions. -/
def put (vs : List LayerV) (i : Nat) : List LayerV → List LayerV
  | [] => vs
  | w :: ws => put (vs.set i w) (i + 1) ws

theorem Arr.copyAll {h0 : Heap} {q : Nat} {others : Finset Nat} {n : Nat} : ∀ {as : List Layer} {ws : List LayerV} {i : Nat} {h : Heap} {ls : List Layer} {vs : List LayerV}
    {f : Nat → Finset Nat}, Arr h0 h q ls vs f others → ls.length = n → List.Forall₂ (Src h0 h q others) as ws → i + as.length ≤ n →
    ∃ h' ls' f', Own.copyAll q i as h = some ((), h') ∧ ls'.length = n ∧ Arr h0 h' q ls' (put vs i ws) f' others ∧ ∀ p, Kept h0 q others p → h'.cells p = h.cells p := by
  intro as
  induction as with
  | nil =>
    intro ws i h ls vs f A hl hs hi
    cases hs
    exact ⟨h, ls, f, rfl, hl, A, fun _ _ => rfl⟩
  | cons a as ih =>
    intro ws i h ls vs f A hl hs hi
    cases hs with
    | @cons _ w _ ws h1 h2 =>
      rw [List.length_cons] at hi
      obtain ⟨s, r, k⟩ := h1
      obtain ⟨h', ls', f', e, hl', A', fr⟩ := A.copyInto (i := i) (by omega) r
        (Finset.disjoint_left.2 fun p hp => (A.kept (k p hp)).2.1) (fun m => (A.kept (k q m)).1 rfl)
      have fr' : ∀ p, Kept h0 q others p → h'.cells p = h.cells p := fun p hp => by
        obtain ⟨x, y, z⟩ := A.kept hp; exact fr p x y z
      obtain ⟨h2, ls2, f2, e2, hl2, A2, fr2⟩ := ih (i := i + 1) A' (hl'.trans hl) (h2.imp fun _ _ hx => hx.frame fr') (by omega)
      refine ⟨h2, ls2, f2, ?_, hl2, A2, fun p hp => (fr2 p hp).trans (fr' p hp)⟩
      unfold Own.copyAll
      exact (step e).trans e2

/-- The first layer of an element. -/
def Part.offset : Part → Nat
  | .die o _ _ => o
  | .layer o _ => o
  | .channel o _ _ _ => o

/-- The layers an element has, by value, the bottom-most first; those of a channel are made of the material of its walls. -/
def PartV (h0 : Heap) (e : Part) (ws : List LayerV) : Prop :=
  match e with
  | .die _ ls _ => List.Forall₂ (fun a v => ∃ s, RLayer h0 a v s) ls ws
  | .layer _ l => ∃ w s, RLayer h0 l w s ∧ ws = [w]
  | .channel _ id c _ => ∃ m s i t, RMaterial h0 c.material m s ∧ RString h0 id i t ∧ ws = List.replicate c.nLayers ((i, none, m, []), c.height, 0, 0)

theorem src_of_old {h0 h : Heap} {q : Nat} {ls : List Layer} {vs : List LayerV} {f : Nat → Finset Nat} {others : Finset Nat} (A : Arr h0 h q ls vs f others)
    {a : Layer} {v : LayerV} (r : ∃ s, RLayer h0 a v s) : Src h0 h q others a v := by
  obtain ⟨s, r⟩ := r
  exact ⟨s, layer_lawful.loc.new r A.new, fun p hp => Or.inl (layer_lawful.loc.below r p hp)⟩

theorem Arr.fillPart {h0 h : Heap} {q : Nat} {others : Finset Nat} {n : Nat} {ls : List Layer} {vs : List LayerV} {f : Nat → Finset Nat} (A : Arr h0 h q ls vs f others)
    (hl : ls.length = n) {e : Part} {ws : List LayerV} (he : PartV h0 e ws) (hi : e.offset + ws.length ≤ n) :
    ∃ h' ls' f', Own.fillPart q e h = some ((), h') ∧ ls'.length = n ∧ Arr h0 h' q ls' (put vs e.offset ws) f' others ∧ ∀ p, Kept h0 q others p → h'.cells p = h.cells p := by
  cases e with
  | die o l src =>
    exact A.copyAll hl (List.Forall₂.imp (fun _ _ hx => src_of_old A hx) he) (by rw [List.Forall₂.length_eq he]; exact hi)
  | layer o l =>
    obtain ⟨w, s, r, rfl⟩ := he
    obtain ⟨h', ls', f', e, r⟩ := A.copyAll (i := o) hl (List.Forall₂.cons (src_of_old A ⟨s, r⟩) List.Forall₂.nil) hi
    refine ⟨h', ls', f', ?_, r⟩
    have : Own.copyAll q o [l] = Own.copyInto q o l := by
      show (Own.copyInto q o l >>= fun _ => pure ()) = _
      exact bind_pure _
    rw [this] at e
    exact e
  | channel o id c rm =>
    obtain ⟨m, s, i, t, rm, ri, rfl⟩ := he
    obtain ⟨m', h1, s1, e1, n1, r1⟩ := material_lawful.dup h _ _ _ (material_lawful.loc.new rm A.new)
    obtain ⟨i', h2, s2, e2, n2, r2⟩ := string_lawful.dup h1 _ _ _ (string_lawful.loc.new ri (A.new.trans n1))
    have n12 := n1.trans n2
    have rt : RLayer h2 ⟨c.height, m', i', none, listInit, 0, 0⟩ ((i, none, m, []), c.height, 0, 0) (s1 ∪ s2) := by
      refine ⟨⟨s2, s1, r2, ⟨∅, s1, init_string _, ⟨s1, ∅, material_lawful.loc.new r1 n2, init_list _, by simp, by simp⟩, by simp, by simp⟩, (n1.disjoint n2).symm, ?_⟩, rfl⟩
      rw [Finset.union_comm]
    have lt : ∀ p ∈ others ∪ own ls.length f, p < h.next := fun p hp => A.new.below p hp
    have ge : ∀ p ∈ s1 ∪ s2, h.next ≤ p := n12.above
    have old : ∀ p < h.next, h2.cells p = h.cells p := n12.old
    have qlt : q < h.next := lt q (Finset.mem_union_left _ A.q_in)
    have A2 : Arr h0 h2 q ls vs f (others ∪ (s1 ∪ s2)) := by
      refine ⟨(old q qlt).trans A.has, A.all.frame fun p hp => old p (lt p (Finset.mem_union_right _ hp)), Finset.mem_union_left _ A.q_in, ?_, ?_⟩
      · refine Finset.disjoint_union_left.2 ⟨A.dj, Finset.disjoint_left.2 fun p hp hq => ?_⟩
        have := ge p hp; have := lt p (Finset.mem_union_right _ hq); omega
      · have := A.new.trans n12
        rwa [show others ∪ (s1 ∪ s2) ∪ own ls.length f = others ∪ own ls.length f ∪ (s1 ∪ s2) by ext p; simp only [Finset.mem_union]; tauto]
    have kt : ∀ p ∈ s1 ∪ s2, Kept h0 q (others ∪ (s1 ∪ s2)) p := fun p hp => Or.inr ⟨Finset.mem_union_right _ hp, by
      rintro rfl; have := ge p hp; omega⟩
    obtain ⟨h3, ls3, f3, e3, hl3, A3, fr3⟩ := A2.copyAll (i := o) (as := List.replicate c.nLayers ⟨c.height, m', i', none, listInit, 0, 0⟩)
      (ws := List.replicate c.nLayers ((i, none, m, []), c.height, 0, 0)) hl (by
        clear hi
        induction c.nLayers with
        | zero => exact List.Forall₂.nil
        | succ k ih => exact List.Forall₂.cons ⟨_, rt, kt⟩ ih) (by rw [List.length_replicate] at hi ⊢; exact hi)
    have rt3 := layer_lawful.loc.frame rt fun p hp => fr3 p (kt p hp)
    obtain ⟨d, e4, r4⟩ := layer_lawful.destroy _ _ _ _ rt3
    have dj3 : Disjoint (s1 ∪ s2) (own ls3.length f3) := Finset.disjoint_of_subset_left Finset.subset_union_right A3.dj
    have djo : Disjoint others (s1 ∪ s2) := Finset.disjoint_left.2 fun p hp hq => by
      have := ge p hq; have := lt p (Finset.mem_union_left _ hp); omega
    have qn : q ∉ s1 ∪ s2 := fun m => by have := ge q m; omega
    refine ⟨h3.minus (s1 ∪ s2), ls3, f3, ?_, hl3, ?_, ?_⟩
    · simp only [Own.fillPart]
      rw [step (show materialCopy materialInit c.material h = some (m', h1) from e1), step (show stringCopy none id h1 = some (i', h2) from e2)]
      rw [step e3, step (show layerDestroy _ h3 = _ from e4)]
      rfl
    · refine ⟨(minus_other _ _ qn).trans A3.has, A3.all.frame fun p hp => minus_other _ _ fun m => Finset.disjoint_left.1 dj3 m hp, A.q_in,
        Finset.disjoint_of_subset_left Finset.subset_union_left A3.dj, ?_⟩
      have := A3.new.minus (t := s1 ∪ s2) fun p hp => Finset.mem_union_left _ (Finset.mem_union_right _ hp)
      rw [show (others ∪ (s1 ∪ s2) ∪ own ls3.length f3) \ (s1 ∪ s2) = others ∪ own ls3.length f3 by
        ext p
        have a1 : p ∈ others → p ∉ s1 ∪ s2 := fun hp => Finset.disjoint_left.1 djo hp
        have a2 : p ∈ s1 ∪ s2 → p ∉ own ls3.length f3 := fun hp => Finset.disjoint_left.1 dj3 hp
        simp only [Finset.mem_union, Finset.mem_sdiff] at a1 a2 ⊢
        tauto] at this
      exact this
    · intro p hp
      obtain ⟨x, y, z⟩ := A.kept hp
      have k3 : Kept h0 q (others ∪ (s1 ∪ s2)) p := hp.imp (fun x => x) fun w => ⟨Finset.mem_union_left _ w.1, w.2⟩
      rw [minus_other _ _ fun m => by have := ge p m; omega, fr3 p k3, old p z]

/-- The values of the layers after all the elements have been copied. -/
def putAll (vs : List LayerV) : List Part → List (List LayerV) → List LayerV
  | e :: es, ws :: wss => putAll (put vs e.offset ws) es wss
  | _, _ => vs

theorem Arr.fillParts {h0 : Heap} {q : Nat} {others : Finset Nat} {n : Nat} : ∀ {es : List Part} {wss : List (List LayerV)} {h : Heap} {ls : List Layer} {vs : List LayerV}
    {f : Nat → Finset Nat}, Arr h0 h q ls vs f others → ls.length = n → List.Forall₂ (fun e ws => PartV h0 e ws ∧ e.offset + ws.length ≤ n) es wss →
    ∃ h' ls' f', Own.fillParts q es h = some ((), h') ∧ ls'.length = n ∧ Arr h0 h' q ls' (putAll vs es wss) f' others ∧ ∀ p, Kept h0 q others p → h'.cells p = h.cells p := by
  intro es
  induction es with
  | nil =>
    intro wss h ls vs f A hl hs
    cases hs
    exact ⟨h, ls, f, rfl, hl, A, fun _ _ => rfl⟩
  | cons e es ih =>
    intro wss h ls vs f A hl hs
    cases hs with
    | cons h1 h2 =>
      obtain ⟨h', ls', f', e', hl', A', fr⟩ := A.fillPart hl h1.1 h1.2
      obtain ⟨k, ls2, f2, e2, hl2, A2, fr2⟩ := ih A' hl' h2
      refine ⟨k, ls2, f2, ?_, hl2, A2, fun p hp => (fr2 p hp).trans (fr p hp)⟩
      unfold Own.fillParts
      exact (step e').trans e2

/-- Destroying the layers. -/
theorem Arr.destroyLayers {h0 : Heap} {q : Nat} {others : Finset Nat} : ∀ {k i : Nat} {h : Heap} {ls : List Layer} {vs : List LayerV}
    {f : Nat → Finset Nat}, Arr h0 h q ls vs f others → i + k = ls.length → (∀ j < i, f j = ∅) →
    ∃ h', Own.destroyLayers q k i h = some ((), h') ∧ New h0 h' others ∧ ∀ p, Kept h0 q others p → h'.cells p = h.cells p := by
  intro k
  induction k with
  | zero =>
    intro i h ls vs f A hi hf
    refine ⟨h, rfl, ?_, fun _ _ => rfl⟩
    have : own ls.length f = ∅ := by
      rw [Finset.eq_empty_iff_forall_notMem]
      intro p hp
      obtain ⟨j, hj, hp⟩ := mem_own.1 hp
      rw [hf j (by omega)] at hp; simp at hp
    have n := A.new
    rwa [this, Finset.union_empty] at n
  | succ k ih =>
    intro i h ls vs f A hi hf
    have hil : i < ls.length := by omega
    have hv : i < vs.length := by rw [← A.all.len]; exact hil
    have rd := A.all.each i ls[i] vs[i] (List.getElem?_eq_getElem hil) (List.getElem?_eq_getElem hv)
    have fsub : f i ⊆ own ls.length f := fun p hp => mem_own.2 ⟨i, hil, hp⟩
    have qn : q ∉ own ls.length f := Finset.disjoint_left.1 A.dj A.q_in
    obtain ⟨d, e, r⟩ := layer_lawful.destroy _ _ _ _ rd
    have kq : (h.minus (f i)).cells q ≠ none := by rw [minus_other _ _ fun m => qn (fsub m)]; exact A.has.live
    have A' : Arr h0 ((h.minus (f i)).set q ⟨List Layer, ls.set i d⟩ kq) q (ls.set i d) (vs.set i ((none, none, (none, 0, 0, 0, 0), []), 0, 0, 0))
        (Function.update f i ∅) others := by
      have hown : own (ls.set i d).length (Function.update f i ∅) = own ls.length f \ f i := by
        rw [List.length_set, own_update hil ∅ fun j hj => A.all.dj i j (Ne.symm hj), Finset.union_empty]
      refine ⟨set_has _ _ _ _, ?_, A.q_in, ?_, ?_⟩
      · refine A.all.replace hil (layer_lawful.loc.frame r fun p hp => by simp at hp) ?_ fun j hj => Finset.disjoint_empty_left _
        intro j hj p hp
        have hjl : j < ls.length := by
          by_contra hc; rw [A.all.out j (by omega)] at hp; simp at hp
        rw [set_other _ _ _ _ (by rintro rfl; exact qn (mem_own.2 ⟨j, hjl, hp⟩)), minus_other _ _ fun m => Finset.disjoint_left.1 (A.all.dj i j (Ne.symm hj)) m hp]
      · rw [hown]; exact Finset.disjoint_of_subset_right Finset.sdiff_subset A.dj
      · rw [hown]
        have := A.new.minus (t := f i) fun p hp => Finset.mem_union_right _ (fsub hp)
        rw [show (others ∪ own ls.length f) \ f i = others ∪ (own ls.length f \ f i) by
          ext p
          have a1 : p ∈ others → p ∉ f i := fun hp m => Finset.disjoint_left.1 A.dj hp (fsub m)
          simp only [Finset.mem_union, Finset.mem_sdiff]; tauto] at this
        exact this.set q _ kq (Finset.mem_union_left _ A.q_in)
    obtain ⟨h', e', n, fr⟩ := ih (i := i + 1) A' (by rw [List.length_set]; omega) (by
      intro j hj
      by_cases hji : j = i
      · subst hji; rw [Function.update_self]
      · rw [Function.update_of_ne hji]; exact hf j (by omega))
    refine ⟨h', ?_, n, fun p hp => ?_⟩
    · rw [Own.destroyLayers, step (load_eq A.has)]
      simp only [List.getElem?_eq_getElem hil]
      rw [step (show layerDestroy ls[i] h = _ from e), step (store_eq _ kq)]
      exact e'
    · obtain ⟨x, y, z⟩ := A.kept hp
      rw [fr p hp, set_other _ _ _ _ x, minus_other _ _ fun m => y (fsub m)]

end Verif.Own
