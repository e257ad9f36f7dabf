import Verif.Lemmas.ThermalBuild
import Verif.Props.Memory

/-!
Property C78: the memory of the thermal data.

The specification: a stack is a list of elements with the values of their layers (`Stack`); the thermal grid of built thermal data contains exactly these layers, in
order (`GridIs`); building allocates, and destroying gives everything back (`Same`: the contents of the memory are equal). Whether an allocation fails is arbitrary.
-/

set_option linter.unusedSectionVars false
set_option linter.unusedSimpArgs false
set_option linter.unusedVariables false

namespace Verif.Own

/-- Each element starts where the one below it ends. -/
def Offsets : Nat → List Part → List (List LayerV) → Prop
  | _, [], [] => True
  | k, e :: es, ws :: wss => e.offset = k ∧ Offsets (k + ws.length) es wss
  | _, _, _ => False

/-- In the memory `h` the elements of `x` have layers with the values `wss`, one on top of the other, each has a layer, and there are no other layers. -/
structure Stack (h : Heap) (x : Input) (wss : List (List LayerV)) : Prop where
  each : List.Forall₂ (PartV h) x.parts wss
  offsets : Offsets 0 x.parts wss
  all : x.nLayers = wss.flatten.length
  filled : ∀ ws ∈ wss, ws ≠ []

/-- The thermal grid refers to layers with the values `vs`. -/
def GridIs (h : Heap) (t : TData) (vs : List LayerV) : Prop :=
  ∃ p ls, t.ptr .tLayers = .at p ∧ Has h p ls ∧ List.Forall₂ (fun l v => ∃ s, RLayer h l v s) ls vs

/-- The contents of the memory are equal. -/
def Same (h h' : Heap) : Prop := ∀ p, h'.cells p = h.cells p

/-- A block that was not there before and is there now. -/
def Leaked (h h' : Heap) (p : Nat) : Prop := h.cells p = none ∧ h'.cells p ≠ none

/-- All the allocations succeed; those of SuperLU do, if it returns. -/
def Input.plenty (x : Input) : Prop := ∀ n, n ∉ [Name.bStore, .aStore, .gstat, .uStore, .lStore, .permuted] → x.ok n = true

/-- Is the element a channel with the model of four resistors? -/
def Part.four : Part → Prop
  | .channel _ _ _ r => r = true
  | _ => False

/-- Is the element a die or a layer? -/
def Part.solid : Part → Prop
  | .channel _ _ _ _ => False
  | _ => True

/-- The stacks that cannot be simulated: a pluggable heat sink with channels of the model of four resistors; two heat sinks on the same layer. -/
def Input.Wrong (x : Input) : Prop :=
  (x.top = some true ∧ ∃ e ∈ x.parts, e.four) ∨ (x.top ≠ none ∧ x.bottom = true ∧ x.nLayers = 1 ∧ ∃ e ∈ x.parts, e.solid)

theorem put_mid : ∀ (ws pre rest : List LayerV), ws.length ≤ rest.length → put (pre ++ rest) pre.length ws = pre ++ ws ++ rest.drop ws.length := by
  intro ws
  induction ws with
  | nil => intro pre rest _; simp [put]
  | cons w ws ih =>
    intro pre rest hl
    cases rest with
    | nil => simp at hl
    | cons r rest =>
      simp only [List.length_cons] at hl
      have e : (pre ++ r :: rest).set pre.length w = (pre ++ [w]) ++ rest := by simp
      have := ih (pre ++ [w]) rest (by omega)
      rw [List.length_append, List.length_singleton] at this
      rw [put, e, this]
      simp

theorem putAll_mid : ∀ (es : List Part) (wss : List (List LayerV)) (pre rest : List LayerV), Offsets pre.length es wss → rest.length = wss.flatten.length →
    putAll (pre ++ rest) es wss = pre ++ wss.flatten := by
  intro es
  induction es with
  | nil =>
    intro wss pre rest ho hl
    cases wss with
    | nil => simp at hl; simp [putAll, hl]
    | cons _ _ => exact ho.elim
  | cons e es ih =>
    intro wss pre rest ho hl
    cases wss with
    | nil => exact ho.elim
    | cons ws wss =>
      obtain ⟨h1, h2⟩ := ho
      rw [List.flatten_cons, List.length_append] at hl
      rw [putAll, h1, put_mid ws pre rest (by omega)]
      rw [ih wss (pre ++ ws) (rest.drop ws.length) (by rw [List.length_append]; exact h2) (by rw [List.length_drop]; omega), List.flatten_cons, List.append_assoc]

theorem offsets_fit : ∀ (es : List Part) (wss : List (List LayerV)) (k n : Nat) (h : Heap), Offsets k es wss → k + wss.flatten.length ≤ n → List.Forall₂ (PartV h) es wss →
    List.Forall₂ (fun e ws => PartV h e ws ∧ e.offset + ws.length ≤ n) es wss := by
  intro es
  induction es with
  | nil => intro wss k n h _ _ hs; cases hs; exact .nil
  | cons e es ih =>
    intro wss k n h ho hl hs
    cases hs with
    | cons h1 h2 =>
      obtain ⟨o1, o2⟩ := ho
      rw [List.flatten_cons, List.length_append] at hl
      exact .cons ⟨h1, by omega⟩ (ih _ _ _ _ o2 (by omega) h2)

theorem Stack.build {h : Heap} {x : Input} {wss : List (List LayerV)} (s : Stack h x wss) :
    ∃ b t h', tdBuild x (tdInit raw) h = some ((b, t), h') ∧ Outcome x h wss.flatten b t h' := by
  obtain ⟨b, t, h', e, o⟩ := tdBuild_spec (x := x) (h0 := h) (wss := wss) (offsets_fit _ _ 0 _ _ s.offsets (by rw [s.all]; omega) s.each)
  have := putAll_mid x.parts wss [] (List.replicate x.nLayers emptyV) s.offsets (by rw [List.length_replicate, s.all])
  rw [List.nil_append, List.nil_append] at this
  rw [this] at o
  exact ⟨b, t, h', e, o⟩

theorem Lay.gridIs {h0 h : Heap} {t : TData} {ns : Finset Name} {sl : Finset Nat} {vs : List LayerV} (I : Inv h0 h t ns sl) (hn : .tLayers ∈ ns) (L : Lay h t sl vs) : GridIs h t vs := by
  obtain ⟨ls, f, a, r, -, -⟩ := L
  refine ⟨_, ls, I.ptr _ hn, a, List.forall₂_iff_get.2 ⟨r.len, fun i h1 h2 => ⟨f i, ?_⟩⟩⟩
  exact r.each i _ _ (List.getElem?_eq_getElem h1) (List.getElem?_eq_getElem h2)

theorem free_gone {h : Heap} {p : Nat} (e : h.cells p = none) : free p h = none := by
  unfold free; simp [e]

theorem bind_none {α β : Type} {m : M α} {f : α → M β} {h : Heap} (e : m h = none) : (m >>= f) h = none := by
  show Option.bind (m h) _ = none
  rw [e]; rfl

theorem destroy_dangling {h : Heap} {t : TData} {p : Nat} (e : t.ptr .temperatures = .at p) (g : h.cells p = none) : tdDestroy t h = none := by
  unfold tdDestroy
  refine bind_none ?_
  rw [e]; exact free_gone g

theorem freeAll_nulls {t : TData} {h : Heap} : ∀ (ns : List Name), (∀ n ∈ ns, t.ptr n = .null) → freeAll t ns h = some ((), h) := by
  intro ns
  induction ns with
  | nil => intro _; rfl
  | cons n ns ih =>
    intro hn
    have : freePv (t.ptr n) h = some ((), h) := by rw [hn n List.mem_cons_self]; rfl
    rw [freeAll, step this]; exact ih fun m hm => hn m (List.mem_cons_of_mem _ hm)

theorem Blank.destroy {h : Heap} {t : TData} (b : Blank h t) : tdDestroy t h = none := by
  have nul := b.nulls
  have e1 : freePv (t.ptr .temperatures) h = some ((), h) := by rw [nul _ (by decide)]; rfl
  have e2 : tgDestroy t h = some (tgInit t, h) := by
    unfold tgDestroy
    have : freePv (t.ptr .tTypes) h = some ((), h) := by rw [nul _ (by decide)]; rfl
    rw [step this, nul .tLayers (by decide)]; rfl
  have e3 : pgDestroy (tgInit t) h = some (pgInit (tgInit t), h) := by
    unfold pgDestroy
    have : freeAll (tgInit t) pgNames h = some ((), h) := freeAll_nulls _ fun n hn => by
      have h1 : n ≠ .tLayers := by revert n; decide
      have h2 : n ≠ .tTypes := by revert n; decide
      have h3 : n ∈ [Name.temperatures, .bStore, .tTypes, .tLayers] ++ pgNames ++ smNulls := by revert n; decide
      show ((t.set .tTypes .null).set .tLayers .null).ptr n = _
      rw [set_diff _ _ h1, set_diff _ _ h2]; exact nul n h3
    exact (step this).trans rfl
  have e4 : smDestroy (pgInit (tgInit t)) h = none := by
    unfold smDestroy
    refine bind_none ?_
    obtain ⟨u, hu⟩ : ∃ u, u = pgInit (tgInit t) := ⟨_, rfl⟩
    have hsame : ∀ n, n ∉ [Name.tTypes, .tLayers] ++ pgNames → u.ptr n = t.ptr n := by
      intro n hn
      rw [hu]
      simp only [List.mem_append, List.mem_cons, List.not_mem_nil, or_false, not_or] at hn
      show (if n ∈ pgNames then _ else ((t.set .tTypes .null).set .tLayers .null).ptr n) = _
      rw [if_neg hn.2, set_diff _ _ hn.1.2, set_diff _ _ hn.1.1]
    rw [← hu]
    have f : ∀ n, n ∈ [Name.columnPointers, .rowIndices, .values] → freePv (u.ptr n) h = some ((), h) := by
      intro n hn
      have a : n ∉ [Name.tTypes, .tLayers] ++ pgNames := by revert n; decide
      have b : n ∈ [Name.temperatures, .bStore, .tTypes, .tLayers] ++ pgNames ++ smNulls := by revert n; decide
      rw [hsame n a, nul n b]; rfl
    have g : freePv (u.ptr .nzvalL) h = none := by
      rw [hsame _ (by decide)]
      rcases b.l with e | ⟨p, e, g⟩
      · rw [e]; rfl
      · rw [e]; exact free_gone g
    simp only [smFrees, freeAll]
    rw [step (f _ (by decide)), step (f _ (by decide)), step (f _ (by decide))]
    exact bind_none g
  unfold tdDestroy
  rw [step e1, step e2, step e3]
  exact bind_none e4

theorem fresh_gone {h0 : Heap} {p : Nat} (e : h0.next ≤ p) : h0.cells p = none := by
  by_contra hc; have := h0.ok p hc; omega

theorem Inv.leaked {h0 h : Heap} {t : TData} {ns : Finset Name} {sl : Finset Nat} (I : Inv h0 h t ns sl) {n : Name} (hn : n ∈ ns) : Leaked h0 h (t.addr n) :=
  ⟨fresh_gone (I.ge hn), I.live (Finset.mem_union_left _ (Finset.mem_image_of_mem _ hn))⟩

theorem set_no {ks : List Kind} (h : ∀ k ∈ ks, k ≠ .connected) (i : Nat) : ∀ k ∈ ks.set i .bare, k ≠ .connected := by
  intro k hk
  rcases List.mem_or_eq_of_mem_set hk with h' | rfl
  · exact h k h'
  · decide

theorem sets_no (off : Nat) : ∀ (js : List Nat) {ks : List Kind}, (∀ k ∈ ks, k ≠ .connected) → ∀ k ∈ js.foldl (fun ks j => ks.set (off + j) .bare) ks, k ≠ .connected := by
  intro js
  induction js with
  | nil => intro ks h; exact h
  | cons j js ih => intro ks h; exact ih (set_no h _)

theorem kinds_no (n : Nat) (es : List Part) : ∀ k ∈ kinds n es, k ≠ .connected := by
  unfold kinds
  have : ∀ k ∈ List.replicate n Kind.other, k ≠ .connected := by
    intro k hk; rw [List.eq_of_mem_replicate hk]; decide
  revert this
  generalize List.replicate n Kind.other = ks
  induction es generalizing ks with
  | nil => intro h; exact h
  | cons e es ih =>
    intro h
    rw [List.foldl_cons]
    refine ih _ ?_
    cases e with
    | die off ls src => exact set_no (sets_no off _ h) _
    | layer off l => exact set_no h _
    | channel => exact h

theorem kinds_length (n : Nat) (es : List Part) : (kinds n es).length = n := by
  unfold kinds
  have : (List.replicate n Kind.other).length = n := by simp
  revert this
  generalize List.replicate n Kind.other = ks
  induction es generalizing ks with
  | nil => intro h; exact h
  | cons e es ih =>
    intro h
    rw [List.foldl_cons]
    refine ih _ ?_
    cases e with
    | die off ls src =>
      show (List.set _ _ _).length = n
      rw [List.length_set]
      generalize List.range ls.length = js
      clear ih
      induction js generalizing ks with
      | nil => exact h
      | cons j js ih => exact ih _ (by rw [List.length_set]; exact h)
    | layer off l => show (List.set _ _ _).length = n; rw [List.length_set]; exact h
    | channel => exact h

theorem refuses_iff {h : Heap} {x : Input} {wss : List (List LayerV)} (s : Stack h x wss) : refuses x = true ↔ x.Wrong := by
  have ne := s.filled
  obtain ⟨n, parts, top, bottom, ok, sg⟩ := x
  have four : (parts.any fun e => match e with | .channel _ _ _ r => r | _ => false) = true ↔ ∃ e ∈ parts, e.four := by
    rw [List.any_eq_true]
    refine exists_congr fun e => and_congr_right fun _ => ?_
    cases e <;> simp [Part.four]
  have second : ((kinds n parts).set (n - 1) (if (kinds n parts).getD (n - 1) .other = .bare then Kind.connected else (kinds n parts).getD (n - 1) .other)).getD 0 .other = .connected
      ↔ n = 1 ∧ ∃ e ∈ parts, e.solid := by
    have no := kinds_no n parts
    have getno : ∀ i, (kinds n parts).getD i .other ≠ .connected := by
      intro i
      rw [List.getD_eq_getElem?_getD]
      cases hi : (kinds n parts)[i]? with
      | none => decide
      | some k => exact no k (List.mem_of_getElem? hi)
    by_cases h1 : n = 1
    · have hl : n = wss.flatten.length := s.all
      have each : List.Forall₂ (PartV h) parts wss := s.each
      have off : Offsets 0 parts wss := s.offsets
      clear no getno four s
      cases each with
      | nil => simp at hl; omega
      | @cons e ws es wss' he hes =>
        have hw := ne ws (by simp)
        have hlen : ws.length ≠ 0 := by simpa using hw
        rw [List.flatten_cons, List.length_append] at hl
        have hz : wss'.flatten.length = 0 := by omega
        cases hes with
        | @cons _ ws2 _ wss2 _ _ =>
          have := ne ws2 (by simp)
          have : ws2.length ≠ 0 := by simpa using this
          rw [List.flatten_cons, List.length_append] at hz; omega
        | nil =>
          have hw1 : ws.length = 1 := by simp at hl; omega
          have h0 : e.offset = 0 := off.1
          subst h1
          cases e with
          | die o ls src =>
            have : ls.length = 1 := by rw [← hw1]; exact List.Forall₂.length_eq he
            obtain rfl : o = 0 := h0
            cases src <;> simp [kinds, this, Part.solid, List.range_succ]
          | layer o l =>
            obtain rfl : o = 0 := h0
            simp [kinds, Part.solid]
          | channel o id c r => simp [kinds, Part.solid]
    · refine iff_of_false ?_ fun h => h1 h.1
      by_cases h0 : n = 0
      · subst h0
        have : kinds 0 parts = [] := List.eq_nil_of_length_eq_zero (kinds_length 0 parts)
        rw [this]; decide
      · rw [List.getD_eq_getElem?_getD, List.getElem?_set_ne (by omega), ← List.getD_eq_getElem?_getD]
        exact getno 0
  unfold refuses Input.Wrong
  cases top with
  | none => simp
  | some plug =>
    cases plug with
    | false => simp only [Bool.false_and, Bool.false_eq_true, if_false, Bool.and_eq_true, decide_eq_true_iff, second]; simp
    | true =>
      simp only [Bool.true_and]
      split
      · rename_i hf
        exact iff_of_true rfl (Or.inl ⟨trivial, four.1 hf⟩)
      · rename_i hf
        have hf' : ¬ ∃ e ∈ parts, e.four := fun h => hf (four.2 h)
        simp only [Bool.and_eq_true, decide_eq_true_iff, second]
        simp [hf']
/-- For every memory, every stack in it, every sinks and every pattern of failing allocations: `thermal_data_build` returns (it frees and reads only what is allocated); if
it succeeds, the thermal grid contains exactly the layers of the stack, in order, the memory that was there before is as it was, and `thermal_data_destroy` gives back everything that
was allocated; it succeeds if and only if all the allocations do, the stack is accepted and the matrix is not singular. -/
theorem C78_build_and_destroy (h : Heap) (x : Input) (wss : List (List LayerV)) (s : Stack h x wss) :
    ∃ b t h1, tdBuild x (tdInit raw) h = some ((b, t), h1) ∧
      (b = true → GridIs h1 t wss.flatten ∧ (∀ p, h.cells p ≠ none → h1.cells p = h.cells p) ∧ ∃ t' h2, tdDestroy t h1 = some (t', h2) ∧ Same h h2) ∧
      (b = true ↔ x.plenty ∧ ¬ x.Wrong ∧ x.singular = false) := by
  have rw' := refuses_iff s
  obtain ⟨b, t, h1, e, o⟩ := s.build
  refine ⟨b, t, h1, e, ?_, ?_, ?_⟩
  · intro hb
    cases o with
    | done hk hr hs I L hf =>
      obtain ⟨t', h2, e2, n, -⟩ := tdDestroy_spec I L
      rw [hf] at n
      exact ⟨L.gridIs I (by decide), fun p hp => I.new.old p (h.ok p hp), t', h2, e2, n.same⟩
    | _ => cases hb
  · intro hb
    cases o with
    | done hk hr hs _ _ _ => exact ⟨hk, fun w => (by rw [rw'.2 w] at hr; cases hr), hs⟩
    | _ => cases hb
  · rintro ⟨hp, hr, hs⟩
    cases o with
    | done => rfl
    | noMemory hn _ _ => obtain ⟨n, hm, hn⟩ := hn; rw [hp n hm] at hn; cases hn
    | refused hr' _ _ _ => exact absurd (rw'.1 hr') hr
    | singular _ hs' _ _ => rw [hs] at hs'; cases hs'

/-- If `thermal_data_build` fails for a stack that is accepted and a matrix that is not singular, that is because an allocation failed, and then everything
that it allocated is freed: whichever of the allocations it is. -/
theorem C78_no_memory (h : Heap) (x : Input) (wss : List (List LayerV)) (s : Stack h x wss) (hr : ¬ x.Wrong) (hs : x.singular = false) (t : TData) (h1 : Heap)
    (e : tdBuild x (tdInit raw) h = some ((false, t), h1)) : Same h h1 ∧ ¬ x.plenty := by
  obtain ⟨b, t', h', e', o⟩ := s.build
  rw [e] at e'
  injection e' with e'
  injection e' with e1 e2
  injection e1 with eb et
  subst eb; subst et; subst e2
  cases o with
  | noMemory hn n _ => obtain ⟨m, hm, hn⟩ := hn; exact ⟨n.same, fun hp => by rw [hp m hm] at hn; cases hn⟩
  | refused hr' _ _ _ => exact absurd ((refuses_iff s).1 hr') hr
  | singular _ hs' _ _ => rw [hs] at hs'; cases hs'

/-- Violated for a stack that cannot be simulated (two sinks on the same layer; a pluggable sink with 4-resistor channels): the two arrays of the thermal
grid, with everything the layers own, are never freed: the caller is not told to destroy the thermal data, and cannot, since that frees the temperatures a second time. -/
theorem C78_refused_violated (h : Heap) (x : Input) (wss : List (List LayerV)) (s : Stack h x wss) (hp : x.plenty) (hw : x.Wrong) :
    ∃ t h1 p q, tdBuild x (tdInit raw) h = some ((false, t), h1) ∧ t.ptr .tTypes = .at p ∧ t.ptr .tLayers = .at q ∧ p ≠ q ∧ Leaked h h1 p ∧ Leaked h h1 q ∧ tdDestroy t h1 = none := by
  have hr := (refuses_iff s).2 hw
  obtain ⟨b, t, h1, e, o⟩ := s.build
  cases o with
  | done _ hr' => rw [hr] at hr'; cases hr'
  | noMemory hn _ _ => obtain ⟨n, hm, hn⟩ := hn; rw [hp n hm] at hn; cases hn
  | singular hr' => rw [hr] at hr'; cases hr'
  | refused _ I L d =>
    obtain ⟨p, ep, gp⟩ := d
    refine ⟨t, h1, t.addr .tTypes, t.addr .tLayers, e, I.ptr _ (by decide), I.ptr _ (by decide), fun e => ?_, I.leaked (by decide), I.leaked (by decide), destroy_dangling ep gp⟩
    exact absurd (I.inj _ (by decide) _ (by decide) e) (by decide)

/-- Violated when SuperLU finds the matrix singular: `thermal_data_destroy` does not free the permuted matrix, because the factorization is not marked as done. One block is left. -/
theorem C78_singular_violated (h : Heap) (x : Input) (wss : List (List LayerV)) (s : Stack h x wss) (hp : x.plenty) (hr : ¬ x.Wrong) (hs : x.singular = true) :
    ∃ t h1 p, tdBuild x (tdInit raw) h = some ((false, t), h1) ∧ Leaked h h1 p ∧ ∀ q, q ≠ p → h1.cells q = h.cells q := by
  obtain ⟨b, t, h1, e, o⟩ := s.build
  cases o with
  | done _ _ hs' => rw [hs] at hs'; cases hs'
  | noMemory hn _ _ => obtain ⟨n, hm, hn⟩ := hn; rw [hp n hm] at hn; cases hn
  | refused hr' => exact absurd ((refuses_iff s).1 hr') hr
  | @singular _ _ p _ _ n _ =>
    have ge := n.above p (Finset.mem_singleton_self _)
    refine ⟨t, h1, p, e, ⟨fresh_gone ge, (n.fresh p ge).2 (Finset.mem_singleton_self _)⟩, fun q hq => ?_⟩
    by_cases hl : q < h.next
    · exact n.old q hl
    · rw [fresh_gone (by omega : h.next ≤ q)]
      exact not_live n (by omega) (by simpa using hq)

/-- Violated: after `thermal_data_build` has failed, for whatever reason, `thermal_data_destroy` frees a block that is not allocated or a pointer that was never assigned. -/
theorem C78_after_failure_violated (h : Heap) (x : Input) (wss : List (List LayerV)) (s : Stack h x wss) (t : TData) (h1 : Heap) (e : tdBuild x (tdInit raw) h = some ((false, t), h1)) :
    tdDestroy t h1 = none := by
  obtain ⟨b, t', h', e', o⟩ := s.build
  rw [e] at e'
  injection e' with e'
  injection e' with e1 e2
  injection e1 with eb et
  subst eb; subst et; subst e2
  cases o with
  | noMemory _ n d =>
    rcases d with d | ⟨p, ep, gp⟩
    · exact d.destroy
    · exact destroy_dangling ep ((n.same p).trans (fresh_gone gp))
  | refused _ _ _ d => obtain ⟨p, ep, gp⟩ := d; exact destroy_dangling ep gp
  | singular _ _ _ b => exact b.destroy

/-- Violated: after `thermal_data_destroy` the thermal data is not as after `thermal_data_init`: the arrays of the factors L and U are still referred to, and destroying it once more frees them again. -/
theorem C78_destroy_twice_violated (h : Heap) (x : Input) (wss : List (List LayerV)) (s : Stack h x wss) (t t' : TData) (h1 h2 : Heap)
    (e : tdBuild x (tdInit raw) h = some ((true, t), h1)) (e2 : tdDestroy t h1 = some (t', h2)) : tdDestroy t' h2 = none := by
  obtain ⟨b, t'', h', e', o⟩ := s.build
  rw [e] at e'
  injection e' with e'
  injection e' with e1 e3
  injection e1 with eb et
  subst eb; subst et; subst e3
  cases o with
  | done _ hr hs I L hf =>
    obtain ⟨t3, h3, e3, n, nul, hl⟩ := tdDestroy_spec I L
    rw [e2] at e3
    injection e3 with e3
    injection e3 with e3 e4
    subst e3; subst e4
    rw [hf] at n
    refine Blank.destroy ⟨nul, Or.inr ⟨_, hl.trans (I.ptr _ (by decide)), ?_⟩⟩
    exact not_live n (I.ge (by decide)) (by simp)

/-- Violated: thermal data that was initialised and never built cannot be destroyed: the pointers in the factors were never assigned. -/
theorem C78_unbuilt_violated (h : Heap) : tdDestroy (tdInit raw) h = none :=
  Blank.destroy ⟨by intro n hn; fin_cases hn <;> rfl, Or.inl rfl⟩

/-! ### The hypotheses can be met -/

/-- A layer of a die, a channel with two layers and their names and materials. -/
def tmHeap : Heap := heapOf [⟨String, "bottom"⟩, ⟨String, "SILICON"⟩, ⟨String, "channel"⟩, ⟨String, "COPPER"⟩]
def tmLayer : Layer := ⟨3, ⟨some 1, 1, 2, 3, 4⟩, some 0, none, listInit, 0, 0⟩
def tmChan : Channel := ⟨1, 5, 1, 0, 0, 1, 2, 0, ⟨1, 1, 1, 1, 1, 0, 300⟩, ⟨some 3, 1, 1, 1, 1⟩⟩
def tmLayerV : LayerV := ((some "bottom", none, (some "SILICON", 1, 2, 3, 4), []), 3, 0, 0)
def tmChanV : LayerV := ((some "channel", none, (some "COPPER", 1, 1, 1, 1), []), 5, 0, 0)
/-- A die of two layers (twice the same), a channel with the model of two resistors. -/
def tmInput (ok : Name → Bool) (singular : Bool) : Input := ⟨4, [.die 0 [tmLayer, tmLayer] 1, .channel 2 (some 2) tmChan false], some false, true, ok, singular⟩

theorem tmMat (p : Nat) (a b c d : ℚ) (s : String) (e : Has tmHeap p s) : RMaterial tmHeap ⟨some p, a, b, c, d⟩ (some s, a, b, c, d) {p} :=
  ⟨Or.inr ⟨p, s, rfl, rfl, rfl, e⟩, rfl⟩

theorem tmLayer_good : RLayer tmHeap tmLayer tmLayerV {0, 1} := by
  refine ⟨⟨{0}, {1}, Or.inr ⟨0, _, rfl, rfl, rfl, rfl⟩, ⟨∅, {1}, init_string _, ⟨{1}, ∅, tmMat 1 _ _ _ _ _ rfl, init_list _, by simp, by simp⟩, by simp, by simp⟩, by decide, by decide⟩, rfl⟩

theorem tmStack (ok : Name → Bool) (sg : Bool) : Stack tmHeap (tmInput ok sg) [[tmLayerV, tmLayerV], [tmChanV, tmChanV]] := by
  refine ⟨.cons (.cons ⟨_, tmLayer_good⟩ (.cons ⟨_, tmLayer_good⟩ .nil)) (.cons ⟨_, _, _, _, tmMat 3 _ _ _ _ _ rfl, Or.inr ⟨2, _, rfl, rfl, rfl, rfl⟩, rfl⟩ .nil), ⟨rfl, rfl, trivial⟩, rfl, by simp⟩

theorem tm_accepted (ok : Name → Bool) (sg : Bool) : ¬ (tmInput ok sg).Wrong := by
  simp [Input.Wrong, tmInput]

/-- Everything succeeds, and is given back. -/
example : ∃ t h1 t' h2, tdBuild (tmInput (fun _ => true) false) (tdInit raw) tmHeap = some ((true, t), h1) ∧ GridIs h1 t [tmLayerV, tmLayerV, tmChanV, tmChanV] ∧
    tdDestroy t h1 = some (t', h2) ∧ Same tmHeap h2 ∧ tdDestroy t' h2 = none := by
  obtain ⟨b, t, h1, e, a, c⟩ := C78_build_and_destroy _ _ _ (tmStack (fun _ => true) false)
  obtain rfl := c.2 ⟨fun _ _ => rfl, tm_accepted _ _, rfl⟩
  obtain ⟨g, -, t', h2, e2, s⟩ := a rfl
  exact ⟨t, h1, t', h2, e, g, e2, s, C78_destroy_twice_violated _ _ _ (tmStack (fun _ => true) false) _ _ _ _ e e2⟩

/-- There is no memory for the array of the column permutation. -/
example : ∃ t h1, tdBuild (tmInput (fun n => n ≠ .permC) false) (tdInit raw) tmHeap = some ((false, t), h1) ∧ Same tmHeap h1 ∧ tdDestroy t h1 = none := by
  obtain ⟨b, t, h1, e, -, c⟩ := C78_build_and_destroy _ _ _ (tmStack (fun n => n ≠ .permC) false)
  obtain rfl : b = false := by
    cases b with
    | false => rfl
    | true => have := (c.1 rfl).1 .permC (by decide); simp [tmInput] at this
  exact ⟨t, h1, e, (C78_no_memory _ _ _ (tmStack _ _) (tm_accepted _ _) rfl t h1 e).1, C78_after_failure_violated _ _ _ (tmStack _ _) t h1 e⟩

/-- The matrix is singular. -/
example : ∃ t h1 p, tdBuild (tmInput (fun _ => true) true) (tdInit raw) tmHeap = some ((false, t), h1) ∧ Leaked tmHeap h1 p ∧ ∀ q, q ≠ p → h1.cells q = tmHeap.cells q :=
  C78_singular_violated _ _ _ (tmStack _ _) (fun _ _ => rfl) (tm_accepted _ _) rfl

/-- One layer between two heat sinks. -/
def tmOne : Input := ⟨1, [.layer 0 tmLayer], some false, true, fun _ => true, false⟩
example : ∃ t h1 p q, tdBuild tmOne (tdInit raw) tmHeap = some ((false, t), h1) ∧ t.ptr .tTypes = .at p ∧ t.ptr .tLayers = .at q ∧ p ≠ q ∧ Leaked tmHeap h1 p ∧ Leaked tmHeap h1 q ∧ tdDestroy t h1 = none :=
  C78_refused_violated tmHeap tmOne [[tmLayerV]] ⟨.cons ⟨_, _, tmLayer_good, rfl⟩ .nil, ⟨rfl, trivial⟩, rfl, by simp⟩ (fun _ _ => rfl) (Or.inr ⟨by simp [tmOne], rfl, rfl, .layer 0 tmLayer, by simp [tmOne], trivial⟩)

/-- A pluggable heat sink and channels with the model of four resistors. -/
def tmPlug : Input := ⟨2, [.channel 0 (some 2) tmChan true], some true, false, fun _ => true, false⟩
example : ∃ t h1 p q, tdBuild tmPlug (tdInit raw) tmHeap = some ((false, t), h1) ∧ t.ptr .tTypes = .at p ∧ t.ptr .tLayers = .at q ∧ p ≠ q ∧ Leaked tmHeap h1 p ∧ Leaked tmHeap h1 q ∧ tdDestroy t h1 = none :=
  C78_refused_violated tmHeap tmPlug [[tmChanV, tmChanV]] ⟨.cons ⟨_, _, _, _, tmMat 3 _ _ _ _ _ rfl, Or.inr ⟨2, _, rfl, rfl, rfl, rfl⟩, rfl⟩ .nil, ⟨rfl, trivial⟩, rfl, by simp⟩ (fun _ _ => rfl) (Or.inl ⟨rfl, .channel 0 (some 2) tmChan true, by simp [tmPlug], rfl⟩)

end Verif.Own
