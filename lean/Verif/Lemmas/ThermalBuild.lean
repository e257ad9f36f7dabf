import Verif.Lemmas.ThermalMemory
import Mathlib.Tactic.FinCases

/-! `thermal_data_build` and `thermal_data_destroy` in the memory model. -/

set_option linter.unusedSectionVars false
set_option linter.unusedSimpArgs false
set_option linter.unusedVariables false

namespace Verif.Own

/-- The field of the thermal grid is an array of layers with these values, which own exactly `sl`. -/
def Lay (h : Heap) (t : TData) (sl : Finset Nat) (vs : List LayerV) : Prop :=
  ∃ ls f, Has h (t.addr .tLayers) ls ∧ RAll h ls vs f ∧ sl = own ls.length f ∧ ls.length = t.nLayers

theorem Lay.frame {h h' : Heap} {t t' : TData} {sl : Finset Nat} {vs : List LayerV} (L : Lay h t sl vs) (ep : t'.ptr .tLayers = t.ptr .tLayers) (en : t'.nLayers = t.nLayers)
    (e : ∀ p, p = t.addr .tLayers ∨ p ∈ sl → h'.cells p = h.cells p) : Lay h' t' sl vs := by
  obtain ⟨ls, f, a, r, rfl, d⟩ := L
  have ea : t'.addr .tLayers = t.addr .tLayers := by unfold TData.addr; rw [ep]
  refine ⟨ls, f, ?_, r.frame fun p hp => e p (Or.inr hp), rfl, d.trans en.symm⟩
  rw [ea]; exact (e _ (Or.inl rfl)).trans a

theorem tgDestroy_spec {h0 h : Heap} {t : TData} {ns : Finset Name} {sl : Finset Nat} {vs : List LayerV} (I : Inv h0 h t ns sl) (L : Lay h t sl vs)
    (h1 : .tTypes ∈ ns) (h2 : .tLayers ∈ ns) : ∃ h', tgDestroy t h = some (tgInit t, h') ∧ Inv h0 h' (tgInit t) ((ns.erase .tTypes).erase .tLayers) ∅ := by
  obtain ⟨e, I1⟩ := I.free h1
  have hq : Name.tLayers ∈ ns.erase .tTypes := Finset.mem_erase.2 ⟨by decide, h2⟩
  obtain ⟨ls, f, a, r, rfl, d⟩ := L
  have ne : t.addr .tLayers ≠ t.addr .tTypes := fun e => absurd (I.inj _ h2 _ h1 e) (by decide)
  have A : Arr h0 (h.minus {t.addr .tTypes}) (t.addr .tLayers) ls vs f ((ns.erase .tTypes).image t.addr) :=
    ⟨(minus_other _ _ (by simpa using ne)).trans a,
      r.frame fun p hp => minus_other _ _ (by
        rw [Finset.mem_singleton]; rintro rfl; exact Finset.disjoint_left.1 I.dj (Finset.mem_image_of_mem _ h1) hp),
      Finset.mem_image_of_mem _ hq, I1.dj, I1.new⟩
  obtain ⟨h', e', n, fr⟩ := A.destroyLayers (k := ls.length) (i := 0) (by omega) (by omega)
  have I2 : Inv h0 h' t (ns.erase .tTypes) ∅ := ⟨I1.ptr, I1.inj, Finset.disjoint_empty_right _, by rw [Finset.union_empty]; exact n⟩
  obtain ⟨e2, I3⟩ := I2.free hq
  refine ⟨_, ?_, I3.congr ?_⟩
  · unfold tgDestroy
    rw [step e]
    have hp := I.ptr _ h2
    rw [hp] at e2
    rw [hp]
    simp only
    rw [← d, step e']
    exact (step e2).trans rfl
  · intro m hm
    obtain ⟨m1, hm⟩ := Finset.mem_erase.1 hm
    obtain ⟨m2, hm⟩ := Finset.mem_erase.1 hm
    show ((t.set .tTypes .null).set .tLayers .null).ptr m = t.ptr m
    rw [set_diff _ _ m1, set_diff _ _ m2]

def pgNames : List Name := [.pTypes, .floorplans, .sources, .topTcs, .bottomTcs, .capacities]

theorem pgDestroy_spec {h0 h : Heap} {t : TData} {ns : Finset Name} {sl : Finset Nat} (I : Inv h0 h t ns sl) (hs : ∀ n ∈ pgNames, n ∈ ns) :
    ∃ h', pgDestroy t h = some (pgInit t, h') ∧ Inv h0 h' (pgInit t) (ns \ pgNames.toFinset) sl := by
  obtain ⟨h', e, I', -⟩ := I.freeAll (fs := pgNames) (by decide) hs
  refine ⟨h', (step e).trans rfl, I'.congr fun n hn => ?_⟩
  have : n ∉ pgNames := fun m => (Finset.mem_sdiff.1 hn).2 (List.mem_toFinset.2 m)
  show (if n ∈ pgNames then _ else _) = _
  rw [if_neg this]

/-- The fields that are set by `system_matrix_init`. -/
def smNulls : List Name := [.columnPointers, .rowIndices, .values, .aStore, .permuted, .lStore, .uStore, .gstat, .permC, .permR, .etree, .colcnt, .partSuper]

theorem smInit_ptr (t : TData) (n : Name) : (smInit t).ptr n = if n ∈ smNulls then .null else t.ptr n := rfl

theorem smDestroy_spec {h0 h : Heap} {t : TData} {ns : Finset Name} {sl : Finset Nat} (I : Inv h0 h t ns sl) (hs : ∀ n ∈ smFrees, n ∈ ns) (hp : .permuted ∈ ns) :
    ∃ h', smDestroy t h = some (smInit t, h') ∧
      Inv h0 h' t (if t.factored then ns \ (.permuted :: smFrees).toFinset else ns \ smFrees.toFinset) sl := by
  obtain ⟨h', e, I', -⟩ := I.freeAll (fs := smFrees) (by decide) hs
  cases hf : t.factored with
  | false =>
    refine ⟨h', ?_, by simpa using I'⟩
    unfold smDestroy
    rw [step e, hf]; rfl
  | true =>
    obtain ⟨h2, e2, I2, -⟩ := I'.freeAll (fs := [.permuted]) (by decide) fun n hn => by
      rw [List.mem_singleton.1 hn]; exact Finset.mem_sdiff.2 ⟨hp, by decide⟩
    refine ⟨h2, ?_, ?_⟩
    · unfold smDestroy
      rw [step e, hf]
      simp only [if_true]
      exact (step e2).trans rfl
    · rw [if_pos rfl]
      rwa [show ns \ (.permuted :: smFrees).toFinset = (ns \ smFrees.toFinset) \ [Name.permuted].toFinset by
        ext m; simp only [Finset.mem_sdiff, List.mem_toFinset, List.mem_cons, List.not_mem_nil, or_false]; tauto]

def smNames : List Name := smTable.map Prod.fst
def grid : Finset Name := {.temperatures, .bStore, .tTypes, .tLayers}
def power : Finset Name := grid ∪ pgNames.toFinset
def matrix : Finset Name := power ∪ smNames.toFinset

theorem pgNames_eq : pgTable.map Prod.fst = pgNames := rfl

/-- What `thermal_data_destroy` does with complete thermal data: it frees everything, except the permuted matrix if the factorization failed; afterwards the fields are
as after `thermal_data_init`, but those of L and U, which keep their values. -/
theorem tdDestroy_spec {h0 h : Heap} {t : TData} {sl : Finset Nat} {vs : List LayerV} (I : Inv h0 h t (insert .permuted matrix) sl) (L : Lay h t sl vs) :
    ∃ t' h', tdDestroy t h = some (t', h') ∧ New h0 h' (if t.factored then ∅ else {t.addr .permuted}) ∧
      (∀ n ∈ [Name.temperatures, .bStore, .tTypes, .tLayers] ++ pgNames ++ smNulls, t'.ptr n = .null) ∧ t'.ptr .nzvalL = t.ptr .nzvalL := by
  obtain ⟨e1, I1⟩ := I.free (n := .temperatures) (by decide)
  have hq : Name.tLayers ∈ insert Name.permuted matrix := by decide
  have ht : Name.temperatures ∈ insert Name.permuted matrix := by decide
  have ne : t.addr .tLayers ≠ t.addr .temperatures := fun e => absurd (I.inj _ hq _ ht e) (by decide)
  have L1 : Lay (h.minus {t.addr .temperatures}) t sl vs := L.frame rfl rfl fun p hp => minus_other _ _ (by
    rw [Finset.mem_singleton]
    rintro rfl
    rcases hp with hp | hp
    · exact ne hp.symm
    · exact Finset.disjoint_left.1 I.dj (Finset.mem_image_of_mem _ ht) hp)
  obtain ⟨h2, e2, I2⟩ := tgDestroy_spec I1 L1 (by decide) (by decide)
  obtain ⟨h3, e3, I3⟩ := pgDestroy_spec I2 (by decide)
  obtain ⟨h4, e4, I4⟩ := smDestroy_spec I3 (by decide) (by decide)
  have hfac : (pgInit (tgInit t)).factored = t.factored := rfl
  rw [hfac] at I4
  have hb : Name.bStore ∈ (if t.factored then ((((insert Name.permuted matrix).erase .temperatures).erase .tTypes).erase .tLayers \ pgNames.toFinset) \ (.permuted :: smFrees).toFinset
      else ((((insert Name.permuted matrix).erase .temperatures).erase .tTypes).erase .tLayers \ pgNames.toFinset) \ smFrees.toFinset) := by
    cases t.factored <;> decide
  obtain ⟨e5, I5⟩ := I4.free hb
  refine ⟨tdInit (smInit (pgInit (tgInit t))), h4.minus {(pgInit (tgInit t)).addr .bStore}, ?_, ?_, ?_, ?_⟩
  · unfold tdDestroy
    rw [step e1, step e2, step e3, step e4]
    have : (smInit (pgInit (tgInit t))).ptr .bStore = (pgInit (tgInit t)).ptr .bStore := rfl
    rw [this]
    exact (step e5).trans rfl
  · have n := I5.new
    rw [Finset.union_empty] at n
    have ea : (pgInit (tgInit t)).addr .permuted = t.addr .permuted := rfl
    cases hf : t.factored with
    | true =>
      rw [hf] at n
      rwa [show (Finset.erase (if true = true then ((((insert Name.permuted matrix).erase .temperatures).erase .tTypes).erase .tLayers \ pgNames.toFinset) \ (.permuted :: smFrees).toFinset
        else ((((insert Name.permuted matrix).erase .temperatures).erase .tTypes).erase .tLayers \ pgNames.toFinset) \ smFrees.toFinset) .bStore) = ∅ by decide, Finset.image_empty] at n
    | false =>
      rw [hf] at n
      rwa [show (Finset.erase (if false = true then ((((insert Name.permuted matrix).erase .temperatures).erase .tTypes).erase .tLayers \ pgNames.toFinset) \ (.permuted :: smFrees).toFinset
        else ((((insert Name.permuted matrix).erase .temperatures).erase .tTypes).erase .tLayers \ pgNames.toFinset) \ smFrees.toFinset) .bStore) = {.permuted} by decide, Finset.image_singleton, ea] at n
  · intro n hn
    fin_cases hn <;> rfl
  · rfl

/-- A field that is not allocated in the end. -/
theorem not_live {h0 h : Heap} {s : Finset Nat} (n : New h0 h s) {p : Nat} (h1 : h0.next ≤ p) (h2 : p ∉ s) : h.cells p = none := by
  by_contra hc; exact h2 ((n.fresh p h1).1 hc)

theorem Inv.ge {h0 h : Heap} {t : TData} {ns : Finset Name} {sl : Finset Nat} (I : Inv h0 h t ns sl) {n : Name} (hn : n ∈ ns) : h0.next ≤ t.addr n :=
  I.new.above _ (Finset.mem_union_left _ (Finset.mem_image_of_mem _ hn))

/-- The fields are as after `thermal_data_init`; those of L and U are not set or point to blocks that were freed. -/
structure Blank (h : Heap) (t : TData) : Prop where
  nulls : ∀ n ∈ [Name.temperatures, .bStore, .tTypes, .tLayers] ++ pgNames ++ smNulls, t.ptr n = .null
  l : t.ptr .nzvalL = .unset ∨ ∃ p, t.ptr .nzvalL = .at p ∧ h.cells p = none

/-- The blocks that SuperLU allocates. -/
def slu : List Name := [.bStore, .aStore, .gstat, .uStore, .lStore, .permuted]

/-- How `thermal_data_build` can end. -/
inductive Outcome (x : Input) (h0 : Heap) (vs : List LayerV) : Bool → TData → Heap → Prop
  | done {t h sl} : (∀ n, n ∉ slu → x.ok n = true) → refuses x = false → x.singular = false → Inv h0 h t (insert .permuted matrix) sl → Lay h t sl vs → t.factored = true → Outcome x h0 vs true t h
  | noMemory {t h} : (∃ n, n ∉ slu ∧ x.ok n = false) → New h0 h ∅ → (Blank h t ∨ ∃ p, t.ptr .temperatures = .at p ∧ h0.next ≤ p) → Outcome x h0 vs false t h
  | refused {t h sl} : refuses x = true → Inv h0 h t {.tTypes, .tLayers} sl → Lay h t sl vs → (∃ p, t.ptr .temperatures = .at p ∧ h.cells p = none) → Outcome x h0 vs false t h
  | singular {t h p} : refuses x = false → x.singular = true → New h0 h {p} → Blank h t → Outcome x h0 vs false t h

theorem not_all {x : Input} {l : List (Name × Option (List Name))} {b : Bool} (e : b = true ↔ ∀ e ∈ l, e.2 ≠ none → x.ok e.1 = true) (hb : b = false)
    (hl : ∀ e ∈ l, e.2 ≠ none → e.1 ∉ slu) : ∃ n, n ∉ slu ∧ x.ok n = false := by
  by_contra hc
  have : b = true := e.2 fun a m h => by
    cases hx : x.ok a.1 with
    | true => rfl
    | false => exact absurd ⟨_, hl a m h, hx⟩ hc
  rw [hb] at this; cases this

theorem buildMatrix_spec {x : Input} {h0 h : Heap} {t : TData} {sl : Finset Nat} {vs : List LayerV} (hk : ∀ n ∈ [Name.temperatures, .tTypes, .tLayers] ++ pgNames, x.ok n = true) (hr : refuses x = false) (hF : t.factored = false) (I : Inv h0 h t power sl)
    (L : Lay h t sl vs) :
    ∃ b t' h', buildMatrix x t h = some ((b, t'), h') ∧ Outcome x h0 vs b t' h' := by
  obtain ⟨b, t1, h1, e, en, ef, ep, ec, It, If, eb, -⟩ := Inv.table (ok := x.ok) (ns := power) (l := smTable) (pre := []) (by simpa using I) (by simp) (by simp) (by decide)
    (by simp [Wf, smTable, freeU, freeL]; decide)
  have L1 : Lay h1 t1 sl vs := L.frame (ep _ (by decide)) en fun p hp => ec p (by
    rcases hp with rfl | hp
    · exact Finset.mem_union_left _ (Finset.mem_image_of_mem _ (by decide))
    · exact Finset.mem_union_right _ hp)
  cases b with
  | true =>
    have I1 : Inv h0 h1 t1 matrix sl := It rfl
    have I2 := I1.alloc (n := .permuted) (by decide) ()
    have fl : ∀ f : Bool, Lay (plus h1 ()) { t1.set .permuted (.at h1.next) with factored := f } sl vs := fun f => L1.frame rfl rfl fun p hp => (plus_new h1 ()).old p (by
      refine I1.new.below p ?_
      rcases hp with rfl | hp
      · exact Finset.mem_union_left _ (Finset.mem_image_of_mem _ (by decide))
      · exact Finset.mem_union_right _ hp)
    have Ifl : ∀ f : Bool, Inv h0 (plus h1 ()) { t1.set .permuted (.at h1.next) with factored := f } (insert .permuted matrix) sl := fun f => I2.congr fun _ _ => rfl
    cases hs : x.singular with
    | false =>
      refine ⟨true, { t1.set .permuted (.at h1.next) with factored := true }, plus h1 (), ?_, .done ?_ hr hs (Ifl true) (fl true) rfl⟩
      rotate_left
      · have hm := eb.1 rfl
        have hm' : ∀ n ∈ (smTable.filter fun e => e.2.isSome).map Prod.fst, x.ok n = true := by
          intro n hn
          obtain ⟨a, ha, rfl⟩ := List.mem_map.1 hn
          obtain ⟨ha, hb⟩ := List.mem_filter.1 ha
          exact hm a ha (by intro e; rw [e] at hb; cases hb)
        have cover : ∀ n, n ∈ slu ∨ n ∈ [Name.temperatures, .tTypes, .tLayers] ++ pgNames ∨ n ∈ (smTable.filter fun e => e.2.isSome).map Prod.fst := by
          intro n; cases n <;> decide
        intro n hn
        rcases cover n with h | h | h
        · exact absurd h hn
        · exact hk n h
        · exact hm' n h
      unfold buildMatrix
      rw [step e]
      simp only [if_true]
      have : factorize x t1 h1 = some ((true, { t1.set .permuted (.at h1.next) with factored := true }), plus h1 ()) := by
        unfold factorize; rw [step (alloc_eq _ _), hs]; rfl
      exact (step this).trans rfl
    | true =>
      obtain ⟨t2, h2, e2, n2, nul, hl⟩ := tdDestroy_spec (Ifl t1.factored) (fl t1.factored)
      have hfac : t1.factored = t.factored := ef
      have : factorize x t1 h1 = some ((false, t1.set .permuted (.at h1.next)), plus h1 ()) := by
        unfold factorize; rw [step (alloc_eq _ _), hs]; rfl
      have eL := I2.ptr .nzvalL (by decide)
      have hne : (t1.set .permuted (.at h1.next)).addr .nzvalL ≠ (t1.set .permuted (.at h1.next)).addr .permuted := fun e =>
        absurd (I2.inj _ (by decide) _ (by decide) e) (by decide)
      have hf : t1.factored = false := ef.trans hF
      have n2' : New h0 h2 {(t1.set .permuted (.at h1.next)).addr .permuted} := by
        have := n2
        simp only [hf, Bool.false_eq_true, if_false] at this
        exact this
      · refine ⟨false, t2, h2, ?_, .singular (p := (t1.set .permuted (.at h1.next)).addr .permuted) hr hs n2' ⟨nul, Or.inr ⟨_, hl.trans eL, not_live n2' (I2.ge (by decide)) ?_⟩⟩⟩
        · unfold buildMatrix
          rw [step e]
          simp only [if_true]
          rw [step this]
          simp only [Bool.false_eq_true, if_false]
          refine Eq.trans (step ?_) rfl
          exact e2
        · intro m; exact hne (Finset.mem_singleton.1 m)
  | false =>
    have I1 := If rfl
    obtain ⟨h2, e2, I2, fr⟩ := I1.freeAll (fs := [.bStore, .temperatures]) (by decide) (by decide)
    have L2 : Lay h2 t1 sl vs := L1.frame rfl rfl fun p hp => fr p (by
      intro n hn
      have hn' : n ∈ power := by revert n; decide
      have hne : n ≠ .tLayers := by revert n; decide
      rcases hp with rfl | hp
      · exact fun e => hne (I1.inj _ hn' _ (by decide) e.symm)
      · rintro rfl; exact Finset.disjoint_left.1 I1.dj (Finset.mem_image_of_mem _ hn') hp)
    obtain ⟨h3, e3, I3⟩ := tgDestroy_spec I2 L2 (by decide) (by decide)
    obtain ⟨h4, e4, I4⟩ := pgDestroy_spec I3 (by decide)
    refine ⟨false, pgInit (tgInit t1), h4, ?_, .noMemory (not_all eb rfl (by decide)) ?_ (Or.inr ⟨t1.addr .temperatures, I1.ptr _ (by decide), I1.ge (by decide)⟩)⟩
    · unfold buildMatrix
      rw [step e]
      simp only [Bool.false_eq_true, if_false]
      rw [step e2, step e3]
      exact (step e4).trans rfl
    · have n := I4.new
      rwa [Finset.union_empty, show (((power \ [Name.bStore, .temperatures].toFinset).erase .tTypes).erase .tLayers) \ pgNames.toFinset = ∅ by decide, Finset.image_empty] at n

theorem buildPower_spec {x : Input} {h0 h : Heap} {t : TData} {sl : Finset Nat} {vs : List LayerV} (hk : ∀ n ∈ [Name.temperatures, .tTypes, .tLayers], x.ok n = true) (hF : t.factored = false) (I : Inv h0 h t grid sl) (L : Lay h t sl vs) :
    ∃ b t' h', buildPower x t h = some ((b, t'), h') ∧ Outcome x h0 vs b t' h' := by
  have keep : ∀ {k : Heap} {u : TData}, Inv h0 k u grid sl → Lay k u sl vs → ∀ {k'}, (∀ p, (∀ n ∈ [Name.bStore, .temperatures], p ≠ u.addr n) → k'.cells p = k.cells p) → Lay k' u sl vs := by
    intro k u J M k' fr
    refine M.frame rfl rfl fun p hp => fr p ?_
    intro n hn
    have hn' : n ∈ grid := by revert n; decide
    have hne : n ≠ .tLayers := by revert n; decide
    rcases hp with rfl | hp
    · exact fun e => hne (J.inj _ hn' _ (by decide) e.symm)
    · rintro rfl; exact Finset.disjoint_left.1 J.dj (Finset.mem_image_of_mem _ hn') hp
  cases hr : refuses x with
  | true =>
    obtain ⟨h2, e2, I2, fr⟩ := I.freeAll (fs := [.bStore, .temperatures]) (by decide) (by decide)
    have I3 : Inv h0 h2 t {.tTypes, .tLayers} sl := by rwa [show grid \ [Name.bStore, .temperatures].toFinset = {.tTypes, .tLayers} by decide] at I2
    refine ⟨false, t, h2, ?_, .refused hr I3 (keep I L fr) ⟨_, I.ptr .temperatures (by decide), not_live I3.new (I.ge (by decide)) ?_⟩⟩
    · unfold buildPower
      rw [hr]
      simp only [if_true]
      exact (step e2).trans rfl
    · intro m
      rcases Finset.mem_union.1 m with m | m
      · obtain ⟨k, hk, e⟩ := Finset.mem_image.1 m
        have hg : ∀ k ∈ ({.tTypes, .tLayers} : Finset Name), k ∈ grid ∧ k ≠ .temperatures := by decide
        exact (hg k hk).2 (I.inj _ (hg k hk).1 _ (by decide) e)
      · exact Finset.disjoint_left.1 I.dj (Finset.mem_image_of_mem _ (by decide)) m
  | false =>
    obtain ⟨b, t1, h1, e, en, ef, ep, ec, It, If, eb, -⟩ := Inv.table (ok := x.ok) (ns := grid) (l := pgTable) (pre := []) (by simpa using I) (by simp) (by simp) (by decide)
      (by simp [Wf, pgTable])
    have L1 : Lay h1 t1 sl vs := L.frame (ep _ (by decide)) en fun p hp => ec p (by
      rcases hp with rfl | hp
      · exact Finset.mem_union_left _ (Finset.mem_image_of_mem _ (by decide))
      · exact Finset.mem_union_right _ hp)
    cases b with
    | true =>
      obtain ⟨b, t', h', e', o⟩ := buildMatrix_spec (by
        have hm := eb.1 rfl
        intro n hn
        rcases List.mem_append.1 hn with h | h
        · exact hk n h
        · obtain ⟨a, ha, rfl⟩ := List.mem_map.1 (show n ∈ pgTable.map Prod.fst from h)
          have : ∀ a ∈ pgTable, a.2 ≠ none := by decide
          exact hm a ha (this a ha)) hr (ef.trans hF) (It rfl) L1
      refine ⟨b, t', h', ?_, o⟩
      unfold buildPower
      rw [hr]
      simp only [Bool.false_eq_true, if_false]
      rw [step e]
      exact e'
    | false =>
      have I1 := If rfl
      obtain ⟨h2, e2, I2, fr⟩ := I1.freeAll (fs := [.bStore, .temperatures]) (by decide) (by decide)
      obtain ⟨h3, e3, I3⟩ := tgDestroy_spec I2 (keep I1 L1 fr) (by decide) (by decide)
      refine ⟨false, tgInit t1, h3, ?_, .noMemory (not_all eb rfl (by decide)) ?_ (Or.inr ⟨t1.addr .temperatures, I1.ptr _ (by decide), I1.ge (by decide)⟩)⟩
      · unfold buildPower
        rw [hr]
        simp only [Bool.false_eq_true, if_false]
        rw [step e]
        simp only [Bool.false_eq_true, if_false]
        rw [step e2]
        exact (step e3).trans rfl
      · have n := I3.new
        rwa [Finset.union_empty, show ((grid \ [Name.bStore, .temperatures].toFinset).erase .tTypes).erase .tLayers = ∅ by decide, Finset.image_empty] at n

/-- The structure before `thermal_data_init`: nothing is assigned. -/
def raw : TData := ⟨fun _ => .unset, 0, false⟩

/-- The value of a new layer. -/
def emptyV : LayerV := ((none, none, (none, 0, 0, 0, 0), []), 0, 0, 0)

theorem tdBuild_spec {x : Input} {h0 : Heap} {wss : List (List LayerV)}
    (hs : List.Forall₂ (fun e ws => PartV h0 e ws ∧ e.offset + ws.length ≤ x.nLayers) x.parts wss) :
    ∃ b t h, tdBuild x (tdInit raw) h0 = some ((b, t), h) ∧ Outcome x h0 (putAll (List.replicate x.nLayers emptyV) x.parts wss) b t h := by
  obtain ⟨t0, ht0⟩ : ∃ t0, t0 = { tdInit raw with nLayers := x.nLayers } := ⟨_, rfl⟩
  have nul0 : ∀ n ∈ [Name.temperatures, .bStore, .tTypes, .tLayers] ++ pgNames ++ smNulls, t0.ptr n = .null := by
    rw [ht0]; intro n hn; fin_cases hn <;> rfl
  have l0 : t0.ptr .nzvalL = .unset := by rw [ht0]; rfl
  have f0 : t0.factored = false := by rw [ht0]; rfl
  have n0 : t0.nLayers = x.nLayers := by rw [ht0]
  have I0 : Inv h0 h0 t0 ∅ ∅ := ⟨by simp, by simp, by simp, New.refl _⟩
  have hb : ∀ {r : Bool × TData} {h1 : Heap}, allocTable x.ok [(.temperatures, some []), (.bStore, none), (.tTypes, some [.bStore, .temperatures])] t0 h0 = some (r, h1) →
      tdBuild x (tdInit raw) h0 = (if r.1 then
        if x.ok .tLayers then (do
          let p ← alloc (List.replicate x.nLayers layerInit)
          fillParts p x.parts
          buildPower x (r.2.set .tLayers (.at p)) : M (Bool × TData))
        else do
          freeAll (r.2.set .tLayers .null) [.tTypes, .bStore, .temperatures]
          pure (false, r.2.set .tLayers .null)
        else pure (false, r.2) : M (Bool × TData)) h1 := by
    intro r h1 e
    unfold tdBuild
    rw [← ht0]
    exact step e
  cases hT : x.ok .temperatures with
  | false =>
    have e : allocTable x.ok [(.temperatures, some []), (.bStore, none), (.tTypes, some [.bStore, .temperatures])] t0 h0 = some ((false, t0.set .temperatures .null), h0) := by
      simp only [allocTable, hT]; rfl
    refine ⟨false, t0.set .temperatures .null, h0, (hb e).trans rfl, .noMemory ⟨_, by decide, hT⟩ (New.refl _) (Or.inl ⟨?_, Or.inl ?_⟩)⟩
    · intro n hn
      by_cases en : n = .temperatures
      · rw [en, set_same]
      · rw [set_diff _ _ en]; exact nul0 n hn
    · rw [set_diff _ _ (by decide)]; exact l0
  | true =>
    have I1 := (I0.alloc (n := .temperatures) (by simp) ()).alloc (n := .bStore) (by decide) ()
    obtain ⟨t1, ht1⟩ : ∃ t1, t1 = (t0.set .temperatures (.at h0.next)).set .bStore (.at (plus h0 ()).next) := ⟨_, rfl⟩
    obtain ⟨k1, hk1⟩ : ∃ k1, k1 = plus (plus h0 ()) () := ⟨_, rfl⟩
    rw [← ht1, ← hk1] at I1
    have f1 : t1.factored = false := by rw [ht1]; exact f0
    have n1 : t1.nLayers = x.nLayers := by rw [ht1]; exact n0
    have ecode : allocTable x.ok [(.temperatures, some []), (.bStore, none), (.tTypes, some [.bStore, .temperatures])] t0 h0 =
        allocTable x.ok [(.tTypes, some [.bStore, .temperatures])] t1 k1 := by
      rw [ht1, hk1]
      simp only [allocTable, hT]
      rw [step (alloc_eq _ _), step (alloc_eq _ _)]
    obtain ⟨b, t2, k2, e, en, ef, ep, ec, It, If, eb, efail⟩ := Inv.table (ok := x.ok) (ns := ∅) (l := [(.tTypes, some [.bStore, .temperatures])])
      (pre := [.bStore, .temperatures]) (h := k1) (t := t1) (sl := ∅) (h0 := h0) (by simpa using I1) (by decide) (by simp) (by simp) (by simp [Wf])
    have eT : t2.ptr .temperatures = t1.ptr .temperatures := ep _ (by decide)
    rw [e] at ecode
    cases b with
    | false =>
      refine ⟨false, t2, k2, (hb ecode).trans rfl, .noMemory (not_all eb rfl (by decide)) (by simpa using (If rfl).new) (Or.inr ⟨t1.addr .temperatures, ?_, I1.ge (by decide)⟩)⟩
      rw [eT]; exact I1.ptr _ (by decide)
    | true =>
      have I2 : Inv h0 k2 t2 {.temperatures, .bStore, .tTypes} ∅ := by
        have := It rfl
        rwa [show (∅ ∪ ([Name.bStore, .temperatures] ++ [((Name.tTypes, some [Name.bStore, .temperatures]) : Name × Option (List Name))].map Prod.fst).toFinset : Finset Name) =
          {.temperatures, .bStore, .tTypes} by decide] at this
      cases hL : x.ok .tLayers with
      | false =>
        have I3 : Inv h0 k2 (t2.set .tLayers .null) {.temperatures, .bStore, .tTypes} ∅ := I2.congr fun n hn => set_diff _ _ (by revert n; decide)
        obtain ⟨h3, e3, I4, -⟩ := I3.freeAll (fs := [.tTypes, .bStore, .temperatures]) (by decide) (by decide)
        refine ⟨false, t2.set .tLayers .null, h3, (hb ecode).trans ?_, .noMemory ⟨_, by decide, hL⟩ ?_ (Or.inr ⟨_, I3.ptr .temperatures (by decide), I3.ge (by decide)⟩)⟩
        · rw [hL]
          simp only [if_true, Bool.false_eq_true, if_false]
          exact (step e3).trans rfl
        · have n := I4.new
          rwa [Finset.union_empty, show ({.temperatures, .bStore, .tTypes} : Finset Name) \ [Name.tTypes, .bStore, .temperatures].toFinset = ∅ by decide, Finset.image_empty] at n
      | true =>
        have I3 := I2.alloc (n := .tLayers) (by decide) (List.replicate x.nLayers layerInit)
        rw [show insert Name.tLayers ({.temperatures, .bStore, .tTypes} : Finset Name) = grid by decide] at I3
        obtain ⟨t3, ht3⟩ : ∃ t3, t3 = t2.set .tLayers (.at k2.next) := ⟨_, rfl⟩
        rw [← ht3] at I3
        have hq : t3.addr .tLayers = k2.next := by rw [ht3]; unfold TData.addr; rw [set_same]
        have A : Arr h0 (plus k2 (List.replicate x.nLayers layerInit)) k2.next (List.replicate x.nLayers layerInit) (List.replicate x.nLayers emptyV) (fun _ => ∅) (grid.image t3.addr) := by
          have ho : own (List.replicate x.nLayers layerInit).length (fun _ => ∅) = ∅ := by
            rw [Finset.eq_empty_iff_forall_notMem]; intro p hp; obtain ⟨j, _, m⟩ := mem_own.1 hp; simp at m
          refine ⟨plus_has _ _, ⟨by simp, ?_, fun _ _ _ => by simp, fun _ _ => rfl⟩, ?_, ?_, ?_⟩
          · intro i l v hl hv
            obtain rfl : l = layerInit := by
              have := List.mem_of_getElem? hl; exact List.eq_of_mem_replicate this
            obtain rfl : v = emptyV := by
              have := List.mem_of_getElem? hv; exact List.eq_of_mem_replicate this
            exact layer_lawful.init _
          · rw [← hq]; exact Finset.mem_image_of_mem _ (by decide)
          · rw [ho]; simp
          · rw [ho]; exact I3.new
        obtain ⟨h4, ls, f, e4, hl, A4, -⟩ := A.fillParts (n := x.nLayers) (by simp) hs
        have I4 : Inv h0 h4 t3 grid (own ls.length f) := ⟨I3.ptr, I3.inj, A4.dj, A4.new⟩
        have L4 : Lay h4 t3 (own ls.length f) (putAll (List.replicate x.nLayers emptyV) x.parts wss) :=
          ⟨ls, f, by rw [hq]; exact A4.has, A4.all, rfl, by rw [hl, ht3]; exact (en.trans n1).symm⟩
        obtain ⟨b, t', h', e5, o⟩ := buildPower_spec (x := x) (by
          have hy : x.ok .tTypes = true := (eb.1 rfl) (.tTypes, some [.bStore, .temperatures]) (by simp) (by simp)
          simp [hT, hL, hy]) (by rw [ht3]; exact ef.trans f1) I4 L4
        refine ⟨b, t', h', (hb ecode).trans ?_, o⟩
        rw [hL]
        simp only [if_true]
        rw [step (alloc_eq _ _), step e4, ← ht3]
        exact e5

end Verif.Own
