import Verif.Model.NonUniform
import Verif.Props.SystemMatrix
import Mathlib.Data.List.Sort

set_option linter.unusedSectionVars false
set_option linter.unusedSimpArgs false
set_option linter.unusedVariables false

/-! Sorting and compressed columns for non-uniform grids. -/

namespace Verif.NU
open Verif.Dim Verif.TG Verif.Stk

variable {K : Type}

/-- Key by which the rows of `matrix_tmp` are sorted. -/
def Trip.key (e : Trip K) : Nat × Nat := (e.col, e.row)

theorem before_iff (a b : Trip K) : before a b = true ↔ a.col < b.col ∨ (a.col = b.col ∧ a.row ≤ b.row) := by
  unfold before; simp

theorem before_trans (a b c : Trip K) (h1 : before a b = true) (h2 : before b c = true) : before a c = true := by
  rw [before_iff] at *; omega

theorem before_total (a b : Trip K) : (before a b || before b a) = true := by
  rw [Bool.or_eq_true, before_iff, before_iff]; omega

theorem sorted_sort (ts : List (Trip K)) : (ts.mergeSort before).Pairwise (fun a b => before a b = true) :=
  List.pairwise_mergeSort before_trans before_total ts

/-- Two sorted arrangements of the same rows with different keys are equal. -/
theorem sorted_unique {l₁ l₂ : List (Trip K)} (hp : l₁.Perm l₂) (hk : (l₁.map Trip.key).Nodup)
    (h1 : l₁.Pairwise (fun a b => before a b = true)) (h2 : l₂.Pairwise (fun a b => before a b = true)) : l₁ = l₂ := by
  refine List.Perm.eq_of_pairwise ?_ h1 h2 hp
  intro a b ha hb hab hba
  rw [before_iff] at hab hba
  have hb' : b ∈ l₁ := hp.mem_iff.mpr hb
  refine List.inj_on_of_nodup_map hk ha hb' ?_
  unfold Trip.key
  rw [Prod.mk.injEq]; omega

/-- The columns of a sorted list. -/
def colsOf (n : Nat) (ts : List (Trip K)) : List (List (Trip K)) := (List.range n).map fun j => ts.filter fun e => e.col = j

theorem filter_sorted (ts : List (Trip K)) (h : ts.Pairwise (fun a b => before a b = true)) (c : Nat) :
    ts.filter (fun e => decide (c ≤ e.col)) = ts.filter (fun e => decide (e.col = c)) ++ ts.filter (fun e => decide (c + 1 ≤ e.col)) := by
  induction ts with
  | nil => rfl
  | cons e es ih =>
    rw [List.pairwise_cons] at h
    obtain ⟨h1, h2⟩ := h
    have ih := ih h2
    rcases Nat.lt_trichotomy e.col c with hlt | heq | hgt
    · rw [List.filter_cons_of_neg (by simp; omega), List.filter_cons_of_neg (by simp; omega),
        List.filter_cons_of_neg (by simp; omega), ih]
    · rw [List.filter_cons_of_pos (by simp; omega), List.filter_cons_of_pos (by simp; omega),
        List.filter_cons_of_neg (by simp; omega), ih]; rfl
    · have hno : es.filter (fun e => decide (e.col = c)) = [] := by
        rw [List.filter_eq_nil_iff]
        intro x hx
        have := h1 x hx
        rw [before_iff] at this
        simp; omega
      rw [List.filter_cons_of_pos (by simp; omega), List.filter_cons_of_neg (by simp; omega),
        List.filter_cons_of_pos (by simp; omega), ih, hno]; rfl

theorem flatten_colsOf_from (ts : List (Trip K)) (h : ts.Pairwise (fun a b => before a b = true)) (n c : Nat)
    (hn : ∀ e ∈ ts, e.col < c + n) :
    ((List.range' c n).map fun j => ts.filter fun e => decide (e.col = j)).flatten = ts.filter (fun e => decide (c ≤ e.col)) := by
  induction n generalizing c with
  | zero =>
    rw [List.range'_zero, List.map_nil, List.flatten_nil]; symm
    rw [List.filter_eq_nil_iff]
    intro x hx
    have := hn x hx
    simp; omega
  | succ n ih =>
    rw [List.range'_succ, List.map_cons, List.flatten_cons, ih (c + 1) (fun e he => by have := hn e he; omega), filter_sorted ts h c]

theorem flatten_colsOf (ts : List (Trip K)) (h : ts.Pairwise (fun a b => before a b = true)) (n : Nat)
    (hn : ∀ e ∈ ts, e.col < n) : (colsOf n ts).flatten = ts := by
  have := flatten_colsOf_from ts h n 0 (by simpa using hn)
  unfold colsOf
  rw [List.range_eq_range', this]
  simp

theorem pointers_append (xs rest : List (Trip K)) (cur n : Nat) (h : ∀ e ∈ xs, e.col = cur) :
    pointers cur n (xs ++ rest) = pointers cur (n + xs.length) rest := by
  induction xs generalizing n with
  | nil => simp
  | cons x xs ih =>
    rw [List.cons_append, pointers, if_neg (by simpa using (h x List.mem_cons_self).symm),
      ih _ (fun e he => h e (List.mem_cons_of_mem _ he)), List.length_cons]
    congr 1; omega

theorem pointers_cols (cols : List (List (Trip K))) (c n : Nat)
    (h : ∀ (j : Nat) col, cols[j]? = some col → col ≠ [] ∧ ∀ e ∈ col, e.col = c + 1 + j) :
    pointers c n cols.flatten = cols.scanl (fun p col => p + col.length) n := by
  induction cols generalizing c n with
  | nil => rfl
  | cons col cols ih =>
    obtain ⟨hne, hc⟩ := h 0 col rfl
    cases col with
    | nil => exact absurd rfl hne
    | cons e es =>
      have he := hc e List.mem_cons_self
      rw [List.flatten_cons, List.cons_append, pointers, if_pos (by omega), List.scanl_cons]
      congr 1
      have h2 := pointers_append es cols.flatten e.col (n + 1) (fun x hx => by
        have := hc x (List.mem_cons_of_mem _ hx); omega)
      rw [h2, ih e.col _ (fun j col hj => by
        obtain ⟨a, b⟩ := h (j + 1) col hj
        exact ⟨a, fun x hx => by have := b x hx; omega⟩), List.length_cons]
      congr 1; omega

theorem pointers_all (cols : List (List (Trip K))) (c n : Nat) (hne : cols ≠ [])
    (h : ∀ (j : Nat) col, cols[j]? = some col → col ≠ [] ∧ ∀ e ∈ col, e.col = c + j) :
    n :: pointers c n cols.flatten = cols.scanl (fun p col => p + col.length) n := by
  cases cols with
  | nil => exact absurd rfl hne
  | cons col cols =>
    obtain ⟨h0, hc⟩ := h 0 col rfl
    rw [List.flatten_cons, pointers_append _ _ _ _ (fun e he => by simpa using hc e he), List.scanl_cons,
      pointers_cols cols c _ (fun j col hj => by
        obtain ⟨a, b⟩ := h (j + 1) col hj
        exact ⟨a, fun x hx => by have := b x hx; omega⟩)]

/-- What is needed of the rows of `matrix_tmp`: different positions, inside the matrix, and the diagonal. -/
structure Rows (n : Nat) (ts : List (Trip K)) : Prop where
  keys : (ts.map Trip.key).Nodup
  inside : ∀ e ∈ ts, e.row < n ∧ e.col < n
  diag : ∀ j, j < n → ∃ e ∈ ts, e.row = j ∧ e.col = j

theorem Rows.perm {n : Nat} {ts us : List (Trip K)} (h : Rows n ts) (hp : ts.Perm us) : Rows n us :=
  ⟨(hp.map _).nodup_iff.mp h.keys, fun e he => h.inside e (hp.mem_iff.mpr he), fun j hj => by
    obtain ⟨e, he, h1⟩ := h.diag j hj
    exact ⟨e, hp.mem_iff.mp he, h1⟩⟩

/-- The arrays written from sorted rows, column by column. -/
theorem toCsc_eq {n : Nat} {ts : List (Trip K)} (h : Rows n ts) (hs : ts.Pairwise (fun a b => before a b = true)) (hn : 0 < n) :
    toCsc ts = ⟨(colsOf n ts).scanl (fun p c => p + c.length) 0, (colsOf n ts).flatMap fun c => c.map (·.row),
      (colsOf n ts).flatMap fun c => c.map (·.val)⟩ := by
  have hfl := flatten_colsOf ts hs n fun e he => (h.inside e he).2
  have hcols : ∀ (j : Nat) col, (colsOf n ts)[j]? = some col → col ≠ [] ∧ ∀ e ∈ col, e.col = 0 + j := by
    intro j col hj
    unfold colsOf at hj
    rw [List.getElem?_map, Option.map_eq_some_iff] at hj
    obtain ⟨k, hk, rfl⟩ := hj
    rw [List.getElem?_eq_some_iff] at hk
    obtain ⟨hk1, hk2⟩ := hk
    rw [List.getElem_range] at hk2
    subst hk2
    rw [List.length_range] at hk1
    constructor
    · obtain ⟨e, he, _, h2⟩ := h.diag j hk1
      intro hnil
      rw [List.filter_eq_nil_iff] at hnil
      exact hnil e he (by simpa using h2)
    · intro e he
      rw [List.mem_filter] at he
      simpa using he.2
  have hne : colsOf n ts ≠ [] := by
    unfold colsOf; intro hh
    have := congrArg List.length hh
    simp at this; omega
  unfold toCsc
  have hhead : (ts.head?.map (·.col)).getD 0 = 0 := by
    cases hts : ts with
    | nil => rfl
    | cons e es =>
      obtain ⟨x, hx, hx1, hx2⟩ := h.diag 0 hn
      rw [hts] at hx hs
      rcases List.mem_cons.mp hx with rfl | hx
      · simp [hx2]
      · rw [List.pairwise_cons] at hs
        have := hs.1 x hx
        rw [before_iff] at this
        simp; omega
  rw [hhead]
  have hp := pointers_all (colsOf n ts) 0 0 hne hcols
  rw [hfl] at hp
  rw [hp]
  congr 1
  · conv_lhs => rw [← hfl]
    rw [List.map_flatten, List.flatMap_def]
  · conv_lhs => rw [← hfl]
    rw [List.map_flatten, List.flatMap_def]

theorem colsOf_get {n : Nat} (ts : List (Trip K)) {j : Nat} (hj : j < n) :
    (colsOf n ts)[j]? = some (ts.filter fun e => decide (e.col = j)) := by
  unfold colsOf
  rw [List.getElem?_map, List.getElem?_range hj]; rfl

section field
variable [Field K]

theorem toCsc_entry {n : Nat} {ts : List (Trip K)} (h : Rows n ts) (hs : ts.Pairwise (fun a b => before a b = true)) {i j : Nat}
    (hj : j < n) : (toCsc ts).entry i j = ((ts.filter fun e => decide (e.row = i ∧ e.col = j)).map (·.val)).sum := by
  rw [toCsc_eq h hs (by omega)]
  have := SM.entry_of_columns ((colsOf n ts).map fun c => c.map fun e => (e.row, e.val)) (fun x => x) (i := i) (j := j)
    (col := (ts.filter fun e => decide (e.col = j)).map fun e => (e.row, e.val)) (by rw [List.getElem?_map, colsOf_get ts hj]; rfl)
  have e1 : ((colsOf n ts).map fun c => c.map fun e => (e.row, e.val)).scanl (fun p c => p + c.length) 0 =
      (colsOf n ts).scanl (fun p c => p + c.length) 0 := by
    rw [List.scanl_map]; simp
  have e2 : (((colsOf n ts).map fun c => c.map fun e => (e.row, e.val)).flatMap fun c => c.map fun e => e.1) =
      (colsOf n ts).flatMap fun c => c.map (·.row) := by
    rw [List.flatMap_map]; simp [Function.comp_def]
  have e3 : (((colsOf n ts).map fun c => c.map fun e => (e.row, e.val)).flatMap fun c => c.map (·.2)) =
      (colsOf n ts).flatMap fun c => c.map (·.val) := by
    rw [List.flatMap_map]; simp [Function.comp_def]
  rw [e1, e2, e3] at this
  rw [this, List.filter_map, List.map_map, List.filter_filter]
  congr 1
  rw [show (fun a : Trip K => (((fun e : Nat × K => decide (e.1 = i)) ∘ fun e : Trip K => (e.row, e.val)) a && decide (a.col = j))) =
    fun e => decide (e.row = i ∧ e.col = j) from by funext e; simp]
  rfl

end field

theorem col_sorted {ts : List (Trip K)} (hk : (ts.map Trip.key).Nodup) (hs : ts.Pairwise (fun a b => before a b = true)) (j : Nat) :
    ((ts.filter fun e => decide (e.col = j)).map (·.row)).Pairwise (· < ·) := by
  rw [List.pairwise_map]
  have h2 : (ts.filter fun e => decide (e.col = j)).Pairwise (fun a b => before a b = true) := hs.filter _
  have h3 : ((ts.filter fun e => decide (e.col = j)).map Trip.key).Nodup := (List.filter_sublist.map _).nodup hk
  rw [List.nodup_iff_pairwise_ne, List.pairwise_map] at h3
  refine (h2.and h3).imp_of_mem ?_
  intro a b ha hb ⟨hab, hne⟩
  rw [List.mem_filter] at ha hb
  have ha := ha.2; have hb := hb.2
  rw [before_iff] at hab
  simp only [decide_eq_true_eq] at ha hb
  unfold Trip.key at hne
  rw [ne_eq, Prod.mk.injEq] at hne
  omega

theorem toCsc_valid {n : Nat} {ts : List (Trip K)} (h : Rows n ts) (hs : ts.Pairwise (fun a b => before a b = true)) (hn : 0 < n) :
    SM.ValidCsc (toCsc ts) n := by
  rw [toCsc_eq h hs hn]
  have hlen : (colsOf n ts).length = n := by unfold colsOf; simp
  have hcol : ∀ (j p q : Nat), ((colsOf n ts).scanl (fun p c => p + c.length) 0)[j]? = some p →
      ((colsOf n ts).scanl (fun p c => p + c.length) 0)[j + 1]? = some q →
      j < n ∧ p = (((colsOf n ts).take j).map List.length).sum ∧ q = p + (ts.filter fun e => decide (e.col = j)).length := by
    intro j p q h1 h2
    obtain ⟨-, e1⟩ := SM.scanl_getElem? _ _ _ _ h1
    obtain ⟨l2, e2⟩ := SM.scanl_getElem? _ _ _ _ h2
    have hj : j < n := by omega
    refine ⟨hj, by omega, ?_⟩
    rw [e2, List.take_add_one, colsOf_get ts hj]
    simp only [Option.toList_some, List.map_append, List.sum_append, List.map_cons, List.map_nil, List.sum_cons, List.sum_nil]
    omega
  have hget : ∀ (j p q k : Nat), ((colsOf n ts).scanl (fun p c => p + c.length) 0)[j]? = some p →
      ((colsOf n ts).scanl (fun p c => p + c.length) 0)[j + 1]? = some q → p ≤ k → k < q →
      ((colsOf n ts).flatMap fun c => c.map (·.row))[k]? = ((ts.filter fun e => decide (e.col = j)).map (·.row))[k - p]? := by
    intro j p q k h1 h2 hpk hkq
    obtain ⟨hj, hp, hq⟩ := hcol j p q h1 h2
    have := SM.flatMap_getElem?_map (colsOf n ts) (fun e => e.row) (colsOf_get ts hj) (t := k - p) (by omega)
    rw [← hp, Nat.add_sub_cancel' hpk] at this
    exact this
  refine ⟨?_, ?_, ?_, ?_, ?_, ?_, ?_, ?_⟩
  · show (List.scanl _ _ _).length = _
    rw [List.length_scanl, hlen]
  · show (List.scanl _ _ _)[0]? = _
    cases colsOf n ts <;> simp
  · have hl : n < ((colsOf n ts).scanl (fun p c => p + c.length) 0).length := by
      rw [List.length_scanl, hlen]; omega
    show ((colsOf n ts).scanl (fun p c => p + c.length) 0)[n]? = _
    rw [List.getElem?_eq_getElem hl]
    obtain ⟨-, e⟩ := SM.scanl_getElem? _ _ _ _ (List.getElem?_eq_getElem hl)
    rw [e]
    have : List.take n (colsOf n ts) = colsOf n ts := by rw [List.take_of_length_le (by omega)]
    rw [this]
    show _ = some ((colsOf n ts).flatMap fun c => c.map (·.row)).length
    rw [SM.length_flatMap_map, zero_add]
  · show ((colsOf n ts).flatMap fun c => c.map (·.val)).length = ((colsOf n ts).flatMap fun c => c.map (·.row)).length
    rw [SM.length_flatMap_map, SM.length_flatMap_map]
  · intro j p q h1 h2
    obtain ⟨-, -, h⟩ := hcol j p q h1 h2
    omega
  · intro k r hr
    have hm : r ∈ (colsOf n ts).flatMap fun c => c.map (·.row) := List.mem_of_getElem? hr
    rw [List.mem_flatMap] at hm
    obtain ⟨col, hcm, hr⟩ := hm
    unfold colsOf at hcm
    obtain ⟨j, _, rfl⟩ := List.mem_map.mp hcm
    obtain ⟨e, he, rfl⟩ := List.mem_map.mp hr
    exact (h.inside e (List.mem_filter.mp he).1).1
  · intro j p q k k' r r' h1 h2 hpk hkk hkq hr hr'
    have hs' := col_sorted h.keys hs j
    rw [hget j p q k h1 h2 hpk (by omega)] at hr
    rw [hget j p q k' h1 h2 (by omega) hkq] at hr'
    obtain ⟨i1, e1⟩ := List.getElem?_eq_some_iff.mp hr
    obtain ⟨i2, e2⟩ := List.getElem?_eq_some_iff.mp hr'
    rw [← e1, ← e2]
    exact List.pairwise_iff_getElem.mp hs' _ _ i1 i2 (by omega)
  · intro j p q h1 h2
    obtain ⟨hj, hp, hq⟩ := hcol j p q h1 h2
    obtain ⟨e, he, hr, hc⟩ := h.diag j hj
    have hm : j ∈ (ts.filter fun e => decide (e.col = j)).map (·.row) :=
      List.mem_map.mpr ⟨e, List.mem_filter.mpr ⟨he, by simpa using hc⟩, hr⟩
    obtain ⟨t, ht, hte⟩ := List.getElem_of_mem hm
    rw [List.length_map] at ht
    refine ⟨p + t, by omega, by omega, ?_⟩
    rw [hget j p q (p + t) h1 h2 (by omega) (by omega), Nat.add_sub_cancel_left, List.getElem?_eq_getElem (by simpa using ht), hte]

end Verif.NU
