import Verif.Lemmas.Network

/-! A matrix assembled column by column from lists of links: abstract facts, independent of the code. -/

namespace Verif.Net2

set_option linter.unusedSectionVars false

variable {K : Type} [Field K] [LinearOrder K] [IsStrictOrderedRing K]
variable {ι : Type} [Fintype ι] [DecidableEq ι]

open Finset Matrix

/-- For each column: a base value of the diagonal and a list of off-diagonal coefficients (row, value, contribution to the
diagonal). -/
structure Netw (ι K : Type) where
  base : ι → K
  ents : ι → List (ι × K × K)

/-- Sum of `f` over the coefficients of column `j` in row `i`. -/
def pick (n : Netw ι K) (f : ι × K × K → K) (i j : ι) : K := (((n.ents j).filter (fun e => e.1 = i)).map f).sum

/-- The assembled matrix. -/
def Netw.mat (n : Netw ι K) : Matrix ι ι K := fun i j =>
  (if i = j then n.base j + ((n.ents j).map (fun e => e.2.2)).sum else 0) + pick n (fun e => e.2.1) i j

def Netw.symm (n : Netw ι K) : Matrix ι ι K := fun i j =>
  (if i = j then n.base j + ((n.ents j).map (fun e => e.2.2)).sum else 0) - pick n (fun e => e.2.2) i j

def Netw.flow (n : Netw ι K) : Matrix ι ι K := fun i j => pick n (fun e => e.2.1 + e.2.2) i j

structure Netw.Ok (n : Netw ι K) : Prop where
  nodup : ∀ j, ((n.ents j).map (·.1)).Nodup
  off : ∀ j, ∀ e ∈ n.ents j, e.1 ≠ j
  mirror : ∀ j, ∀ e ∈ n.ents j, ∃ e' ∈ n.ents e.1, e'.1 = j ∧ e'.2.2 = e.2.2 ∧ e'.2.1 + e'.2.2 = -(e.2.1 + e.2.2)

theorem pick_eq {n : Netw ι K} (h : n.Ok) (f : ι × K × K → K) {j : ι} {e : ι × K × K} (he : e ∈ n.ents j) :
    pick n f e.1 j = f e := by
  unfold pick
  have hn := h.nodup j
  generalize n.ents j = L at he hn
  induction L with
  | nil => cases he
  | cons a L ih =>
    rw [List.map_cons, List.nodup_cons] at hn
    rcases List.mem_cons.mp he with rfl | he'
    · rw [List.filter_cons_of_pos (by simp), List.map_cons, List.sum_cons]
      rw [List.filter_eq_nil_iff.mpr]
      · simp
      · intro x hx hxe
        simp only [decide_eq_true_eq] at hxe
        exact hn.1 (List.mem_map.mpr ⟨x, hx, hxe⟩)
    · rw [List.filter_cons_of_neg]
      · exact ih he' hn.2
      · intro hxe
        simp only [decide_eq_true_eq] at hxe
        exact hn.1 (List.mem_map.mpr ⟨e, he', hxe.symm⟩)

theorem pick_zero {n : Netw ι K} (f : ι × K × K → K) {i j : ι} (h : ∀ e ∈ n.ents j, e.1 ≠ i) : pick n f i j = 0 := by
  unfold pick
  rw [List.filter_eq_nil_iff.mpr]
  · simp
  · intro x hx hxe
    exact h x hx (by simpa using hxe)

theorem pick_cases {n : Netw ι K} (h : n.Ok) (i j : ι) :
    (∃ e ∈ n.ents j, ∃ e' ∈ n.ents i, e.1 = i ∧ e'.1 = j ∧ e'.2.2 = e.2.2 ∧ e'.2.1 + e'.2.2 = -(e.2.1 + e.2.2)) ∨
    ((∀ e ∈ n.ents j, e.1 ≠ i) ∧ ∀ e ∈ n.ents i, e.1 ≠ j) := by
  by_cases hx : ∃ e ∈ n.ents j, e.1 = i
  · obtain ⟨e, he, rfl⟩ := hx
    obtain ⟨e', he', h1, h2, h3⟩ := h.mirror j e he
    exact Or.inl ⟨e, he, e', he', rfl, h1, h2, h3⟩
  · refine Or.inr ⟨fun e he hi => hx ⟨e, he, hi⟩, fun e he hj => ?_⟩
    obtain ⟨e', he', h1, -, -⟩ := h.mirror i e he
    rw [hj] at he'
    exact hx ⟨e', he', h1⟩

theorem pick_symm {n : Netw ι K} (h : n.Ok) (i j : ι) : pick n (fun e => e.2.2) i j = pick n (fun e => e.2.2) j i := by
  rcases pick_cases h i j with ⟨e, he, e', he', rfl, h1, h2, -⟩ | ⟨h1, h2⟩
  · have a := pick_eq h (fun e => e.2.2) he
    have b := pick_eq h (fun e => e.2.2) he'
    rw [h1] at b
    rw [a, b, h2]
  · rw [pick_zero _ h1, pick_zero _ h2]

theorem flow_anti {n : Netw ι K} (h : n.Ok) (i j : ι) : n.flow i j = - n.flow j i := by
  unfold Netw.flow
  rcases pick_cases h i j with ⟨e, he, e', he', rfl, h1, -, h3⟩ | ⟨h1, h2⟩
  · have a := pick_eq h (fun e => e.2.1 + e.2.2) he
    have b := pick_eq h (fun e => e.2.1 + e.2.2) he'
    rw [h1] at b
    rw [a, b, h3]; ring
  · rw [pick_zero _ h1, pick_zero _ h2]; simp

theorem symm_symm {n : Netw ι K} (h : n.Ok) (i j : ι) : n.symm i j = n.symm j i := by
  unfold Netw.symm
  rw [pick_symm h i j]
  by_cases hij : i = j
  · subst hij; rfl
  · rw [if_neg hij, if_neg (Ne.symm hij)]

theorem pick_add (n : Netw ι K) (f g : ι × K × K → K) (i j : ι) :
    pick n (fun e => f e + g e) i j = pick n f i j + pick n g i j := by
  unfold pick
  induction (n.ents j).filter (fun e => e.1 = i) with
  | nil => simp
  | cons a L ih => simp only [List.map_cons, List.sum_cons, ih]; ring

theorem mat_eq (n : Netw ι K) : n.mat = n.symm + n.flow := by
  funext i j
  simp only [Netw.mat, Netw.symm, Netw.flow, Matrix.add_apply, pick_add]
  ring

/-- Summing over the rows counts each coefficient of the column once. -/
theorem sum_pick (n : Netw ι K) (f : ι × K × K → K) (j : ι) : ∑ i, pick n f i j = ((n.ents j).map f).sum := by
  unfold pick
  induction n.ents j with
  | nil => simp
  | cons a L ih =>
    rw [List.map_cons, List.sum_cons, ← ih]
    have : ∀ i, (((a :: L).filter (fun e => e.1 = i)).map f).sum =
        (if a.1 = i then f a else 0) + ((L.filter (fun e => e.1 = i)).map f).sum := by
      intro i
      by_cases h : a.1 = i
      · rw [List.filter_cons_of_pos (by simpa using h), if_pos h]; simp
      · rw [List.filter_cons_of_neg (by simpa using h), if_neg h]; simp
    simp only [this, Finset.sum_add_distrib]
    rw [Finset.sum_ite_eq]
    simp

theorem symm_colSum {n : Netw ι K} (j : ι) : ∑ i, n.symm i j = n.base j := by
  simp only [Netw.symm, Finset.sum_sub_distrib, sum_pick]
  rw [Finset.sum_ite_eq' Finset.univ j]
  simp

theorem symm_rowSum {n : Netw ι K} (h : n.Ok) (i : ι) : ∑ j, n.symm i j = n.base i := by
  rw [← symm_colSum (n := n) i]
  exact Finset.sum_congr rfl fun j _ => symm_symm h i j

theorem flow_colSum {n : Netw ι K} (j : ι) : ∑ i, n.flow i j = ((n.ents j).map fun e => e.2.1 + e.2.2).sum :=
  sum_pick n _ j

theorem flow_rowSum {n : Netw ι K} (h : n.Ok) (i : ι) : ∑ j, n.flow i j = - ((n.ents i).map fun e => e.2.1 + e.2.2).sum := by
  rw [← flow_colSum (n := n) i, ← Finset.sum_neg_distrib]
  exact Finset.sum_congr rfl fun j _ => flow_anti h i j

theorem mat_colSum {n : Netw ι K} (j : ι) :
    ∑ i, n.mat i j = n.base j + ((n.ents j).map fun e => e.2.1 + e.2.2).sum := by
  rw [mat_eq]
  simp only [Matrix.add_apply, Finset.sum_add_distrib]
  rw [symm_colSum, flow_colSum]

theorem mat_rowSum {n : Netw ι K} (h : n.Ok) (i : ι) :
    ∑ j, n.mat i j = n.base i - ((n.ents i).map fun e => e.2.1 + e.2.2).sum := by
  rw [mat_eq]
  simp only [Matrix.add_apply, Finset.sum_add_distrib]
  rw [symm_rowSum h, flow_rowSum h]; ring

theorem symm_off {n : Netw ι K} (hpos : ∀ j, ∀ e ∈ n.ents j, 0 ≤ e.2.2) {i j : ι} (hij : i ≠ j) : n.symm i j ≤ 0 := by
  unfold Netw.symm pick
  rw [if_neg hij, zero_sub, neg_nonpos]
  refine List.sum_nonneg fun x hx => ?_
  obtain ⟨e, he, rfl⟩ := List.mem_map.mp hx
  exact hpos j e (List.mem_filter.mp he).1

theorem symm_entry {n : Netw ι K} (h : n.Ok) {j : ι} {e : ι × K × K} (he : e ∈ n.ents j) : n.symm e.1 j = - e.2.2 := by
  unfold Netw.symm
  rw [if_neg (h.off j e he), pick_eq h _ he]; ring

theorem mat_entry {n : Netw ι K} (h : n.Ok) {j : ι} {e : ι × K × K} (he : e ∈ n.ents j) : n.mat e.1 j = e.2.1 := by
  unfold Netw.mat
  rw [if_neg (h.off j e he), pick_eq h _ he]; ring

end Verif.Net2
