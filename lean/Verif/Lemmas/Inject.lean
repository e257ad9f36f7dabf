import Verif.Lemmas.Floorplan

set_option linter.unusedSectionVars false
set_option linter.unusedSimpArgs false
set_option linter.unusedVariables false

/-! Lemmas on the injection of powers into the source vector. -/

namespace Verif.Flp
open Verif.Dim Verif.TG

variable {K : Type} [Field K] [LinearOrder K] [IsStrictOrderedRing K]

theorem sum_map_mul {α : Type} (L : List α) (b : K) (f : α → K) : (L.map fun e => b * f e).sum = b * (L.map f).sum := by
  induction L with
  | nil => simp
  | cons a L ih => simp only [List.map_cons, List.sum_cons, ih]; ring

theorem addAt_length (x : List K) (i : Nat) (v : K) : (addAt x i v).length = x.length := by simp [addAt]

theorem addAt_getD (x : List K) (i : Nat) (v : K) (j : Nat) :
    (addAt x i v).getD j 0 = x.getD j 0 + (if i = j ∧ j < x.length then v else 0) := by
  unfold addAt
  simp only [List.getD_eq_getElem?_getD, List.getElem?_modify]
  by_cases h : i = j
  · subst h
    by_cases hl : i < x.length
    · simp [hl]
    · rw [List.getElem?_eq_none (by omega)]; simp [hl]
  · simp [h]

/-- Sum of the coefficients stored for row `j`. -/
def weightAt (col : List (Nat × K)) (j : Nat) : K := ((col.filter fun e => e.1 = j).map (·.2)).sum

theorem foldl_addAt_length {α : Type} (L : List α) (f : α → Nat) (v : α → K) (x : List K) :
    (L.foldl (fun x e => addAt x (f e) (v e)) x).length = x.length := by
  induction L generalizing x with
  | nil => rfl
  | cons a L ih => rw [List.foldl_cons, ih, addAt_length]

theorem foldl_addAt_getD {α : Type} (L : List α) (f : α → Nat) (v : α → K) (x : List K) (j : Nat) (hj : j < x.length) :
    (L.foldl (fun x e => addAt x (f e) (v e)) x).getD j 0 = x.getD j 0 + ((L.filter fun e => f e = j).map v).sum := by
  induction L generalizing x with
  | nil => simp
  | cons a L ih =>
    rw [List.foldl_cons, ih _ (by rw [addAt_length]; exact hj), addAt_getD]
    by_cases h : f a = j
    · rw [List.filter_cons_of_pos (by simpa using h), if_pos ⟨h, hj⟩, List.map_cons, List.sum_cons]; ring
    · rw [List.filter_cons_of_neg (by simpa using h), if_neg (fun hh => h hh.1)]; ring

theorem multiplyColumn_length (off : Nat) (b : K) (col : List (Nat × K)) (x : List K) : (multiplyColumn off b col x).length = x.length := by
  unfold multiplyColumn; split
  · rfl
  · exact foldl_addAt_length _ _ _ _

theorem multiplyColumn_getD (off : Nat) (b : K) (col : List (Nat × K)) (x : List K) (j : Nat) (hj : j < x.length) :
    (multiplyColumn off b col x).getD j 0 = x.getD j 0 + (if off ≤ j then b * weightAt col (j - off) else 0) := by
  unfold multiplyColumn
  by_cases hb : b = 0
  · simp [hb]
  rw [if_neg hb, foldl_addAt_getD _ (fun e : Nat × K => off + e.1) (fun e => b * e.2) _ _ hj]
  congr 1
  by_cases ho : off ≤ j
  · rw [if_pos ho]
    have : (col.filter fun e => off + e.1 = j) = col.filter fun e => e.1 = j - off := by
      refine List.filter_congr fun e _ => ?_
      rw [decide_eq_decide]; omega
    rw [this]; unfold weightAt
    exact sum_map_mul _ _ _
  · rw [if_neg ho, List.filter_eq_nil_iff.mpr]
    · simp
    · intro e _ he
      rw [decide_eq_true_eq] at he; omega

theorem multiply_length (d : Dims K) (off : Nat) (els : List (FlpEl K)) (bs x : List K) : (multiply d off els bs x).length = x.length := by
  unfold multiply
  generalize els.zip bs = L
  induction L generalizing x with
  | nil => rfl
  | cons a L ih => rw [List.foldl_cons, ih, multiplyColumn_length]

theorem multiply_getD (d : Dims K) (off : Nat) (els : List (FlpEl K)) (bs x : List K) (j : Nat) (hj : j < x.length) :
    (multiply d off els bs x).getD j 0 = x.getD j 0 +
      (if off ≤ j then ((els.zip bs).map fun p => p.2 * weightAt (surface d p.1) (j - off)).sum else 0) := by
  unfold multiply
  generalize els.zip bs = L
  induction L generalizing x with
  | nil => simp
  | cons a L ih =>
    rw [List.foldl_cons, ih _ (by rw [multiplyColumn_length]; exact hj), multiplyColumn_getD _ _ _ _ _ hj]
    by_cases ho : off ≤ j
    · simp only [if_pos ho, List.map_cons, List.sum_cons]; ring
    · simp [if_neg ho]

/-- An element after one of its power values has been taken. -/
def pop (e : FlpEl K) : FlpEl K := { e with powers := e.powers.tail }
/-- The next power value of an element. -/
def next (e : FlpEl K) : K := e.powers.headD 0

theorem takePowers_ok (els : List (FlpEl K)) (h : ∀ e ∈ els, e.powers ≠ []) : takePowers els = (els.map pop, some (els.map next)) := by
  induction els with
  | nil => rfl
  | cons e es ih =>
    have h1 := ih (fun e he => h e (by simp [he]))
    have h2 := h e (by simp)
    unfold takePowers
    cases hp : e.powers with
    | nil => exact absurd hp h2
    | cons p ps =>
      simp only [h1, List.map_cons, Option.map_some]
      simp [pop, next, hp]

theorem takePowers_fail (els : List (FlpEl K)) (h : ∃ e ∈ els, e.powers = []) : (takePowers els).2 = none := by
  induction els with
  | nil => simp at h
  | cons e es ih =>
    unfold takePowers
    cases hp : e.powers with
    | nil => rfl
    | cons p ps =>
      simp only
      obtain ⟨e', h1, h2⟩ := h
      rcases List.mem_cons.mp h1 with rfl | h1
      · rw [hp] at h2; cases h2
      · rw [ih ⟨e', h1, h2⟩]; rfl

theorem fillSources_ok (d : Dims K) (off : Nat) (els : List (FlpEl K)) (x : List K) (h : ∀ e ∈ els, e.powers ≠ []) :
    fillSourcesFlp d off els x = (els.map pop, multiply d off els (els.map next) x, true) := by
  unfold fillSourcesFlp; rw [takePowers_ok els h]

theorem fillSources_fail (d : Dims K) (off : Nat) (els : List (FlpEl K)) (x : List K) (h : ∃ e ∈ els, e.powers = []) :
    fillSourcesFlp d off els x = ((takePowers els).1, x, false) := by
  unfold fillSourcesFlp
  have := takePowers_fail els h
  cases ht : takePowers els with
  | mk a b => rw [ht] at this; simp only at this; subst this; rfl

theorem zip_map_self {α β : Type} (L : List α) (f : α → β) (g : α × β → K) : ((L.zip (L.map f)).map g).sum = (L.map fun a => g (a, f a)).sum := by
  induction L with
  | nil => rfl
  | cons a L ih => simp [ih]

theorem weightAt_nil (j : Nat) : weightAt ([] : List (Nat × K)) j = 0 := rfl

theorem weightAt_append (A B : List (Nat × K)) (j : Nat) : weightAt (A ++ B) j = weightAt A j + weightAt B j := by
  unfold weightAt; rw [List.filter_append, List.map_append, List.sum_append]

theorem weightAt_flatMap {α : Type} (L : List α) (f : α → List (Nat × K)) (j : Nat) :
    weightAt (L.flatMap f) j = (L.map fun a => weightAt (f a) j).sum := by
  induction L with
  | nil => rfl
  | cons a L ih => rw [List.flatMap_cons, weightAt_append, ih, List.map_cons, List.sum_cons]

theorem weightAt_map {α : Type} (L : List α) (f : α → Nat) (v : α → K) (j : Nat) :
    weightAt (L.map fun c => (f c, v c)) j = (L.map fun c => if f c = j then v c else 0).sum := by
  induction L with
  | nil => rfl
  | cons a L ih =>
    unfold weightAt at ih ⊢
    rw [List.map_cons, List.map_cons, List.sum_cons, ← ih]
    by_cases h : f a = j
    · rw [List.filter_cons_of_pos (by simpa using h), if_pos h, List.map_cons, List.sum_cons]
    · rw [List.filter_cons_of_neg (by simpa using h), if_neg h, zero_add]

theorem sum_range'_single (v : Nat → K) (c0 : Nat) : ∀ (n a : Nat),
    ((List.range' a n).map fun c => if c = c0 then v c else 0).sum = if a ≤ c0 ∧ c0 < a + n then v c0 else 0 := by
  intro n
  induction n with
  | zero => intro a; rw [if_neg (by omega)]; rfl
  | succ n ih =>
    intro a
    rw [List.range'_succ, List.map_cons, List.sum_cons, ih]
    by_cases h : a = c0
    · subst h; rw [if_pos rfl, if_neg (by omega), if_pos (by omega), add_zero]
    · rw [if_neg h, zero_add]
      by_cases h2 : a + 1 ≤ c0 ∧ c0 < a + 1 + n
      · rw [if_pos h2, if_pos (by omega)]
      · rw [if_neg h2, if_neg (by omega)]

end Verif.Flp
