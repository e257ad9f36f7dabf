import Verif.Props.NonUniformSink

set_option linter.unusedSectionVars false
set_option linter.unusedSimpArgs false
set_option linter.unusedVariables false

/-! Geometry of the connections of a non-uniform grid. -/

namespace Verif.NU
open Verif.Dim Verif.TG Verif.Stk Verif.SM

variable {K : Type} [Field K] [LinearOrder K] [IsStrictOrderedRing K]

/-- Length of the common part of two intervals (negative: their distance). -/
def overlap (lo hi lo' hi' : K) : K := min hi hi' - max lo lo'

/-- Extent of the common part of two cells in each direction. -/
def commonX (a b : Cell K) : K := overlap a.x0 a.x1 b.x0 b.x1
def commonY (a b : Cell K) : K := overlap a.y0 a.y1 b.y0 b.y1

/-- Two cells are side by side: they share a part of a vertical border, or of a horizontal one. -/
def TouchX (a b : Cell K) : Prop := (a.x1 = b.x0 ∨ b.x1 = a.x0) ∧ 0 < commonY a b
def TouchY (a b : Cell K) : Prop := (a.y1 = b.y0 ∨ b.y1 = a.y0) ∧ 0 < commonX a b

/-- The projections of two cells overlap. -/
def Overlap (a b : Cell K) : Prop := 0 < commonX a b ∧ 0 < commonY a b

/-- One interval lies strictly inside the other. -/
def Nested (lo hi lo' hi' : K) : Prop := (lo < lo' ∧ hi' < hi) ∨ (lo' < lo ∧ hi < hi')

/-- Borders of cells are equal, or further apart than a thousandth. -/
def Apart (a b : Cell K) : Prop :=
  (a.x0 - b.x1 = 0 ∨ 1 / 1000 < |a.x0 - b.x1|) ∧ (a.y0 - b.y1 = 0 ∨ 1 / 1000 < |a.y0 - b.y1|) ∧
  (a.x1 - b.x0 = 0 ∨ 1 / 1000 < |a.x1 - b.x0|) ∧ (a.y1 - b.y0 = 0 ∨ 1 / 1000 < |a.y1 - b.y0|)

theorem small_iff {d : K} (h : d = 0 ∨ 1 / 1000 < |d|) : |d| < Flp.epsilon ↔ d = 0 := by
  unfold Flp.epsilon
  constructor
  · intro h1
    rcases h with h | h
    · exact h
    · exfalso
      have : (1 : K) / 1000000 < 1 / 1000 := by norm_num
      linarith
  · rintro rfl; rw [abs_zero]; norm_num

theorem big_mul {d e : K} (h : 1 / 1000 < |d|) (h' : 1 / 1000 < |e|) : Flp.epsilon < |d * e| := by
  unfold Flp.epsilon
  rw [abs_mul]
  have : (1 : K) / 1000000 = 1 / 1000 * (1 / 1000) := by norm_num
  rw [this]
  exact mul_lt_mul'' h h' (by norm_num) (by norm_num)

theorem smallMul_iff {d e : K} (h : d = 0 ∨ 1 / 1000 < |d|) (h' : e = 0 ∨ 1 / 1000 < |e|) : |d * e| < Flp.epsilon ↔ d = 0 ∨ e = 0 := by
  have hp : (0 : K) < Flp.epsilon := by unfold Flp.epsilon; norm_num
  constructor
  · intro h1
    rcases h with h | h
    · exact Or.inl h
    · rcases h' with h' | h'
      · exact Or.inr h'
      · exact absurd (big_mul h h') (not_lt.mpr h1.le)
  · rintro (rfl | rfl) <;> simp [hp]

theorem negMul_iff {d e : K} (h : d = 0 ∨ 1 / 1000 < |d|) (h' : e = 0 ∨ 1 / 1000 < |e|) (hde : d < e) :
    d * e < - Flp.epsilon ↔ d < 0 ∧ 0 < e := by
  have hp : (0 : K) < Flp.epsilon := by unfold Flp.epsilon; norm_num
  constructor
  · intro h1
    have h2 : d * e < 0 := by linarith
    rcases mul_neg_iff.mp h2 with ⟨a, b⟩ | ⟨a, b⟩
    · exact absurd (lt_trans b a) (not_lt.mpr hde.le)
    · exact ⟨a, b⟩
  · rintro ⟨a, b⟩
    have h1 := big_mul (h.resolve_left (ne_of_lt a)) (h'.resolve_left (ne_of_gt b))
    rw [abs_of_neg (mul_neg_of_neg_of_pos a b)] at h1
    linarith

theorem overlap_pos {lo hi lo' hi' : K} (h : lo < hi) (h' : lo' < hi') : 0 < overlap lo hi lo' hi' ↔ lo - hi' < 0 ∧ 0 < hi - lo' := by
  unfold overlap
  rw [sub_pos, sub_neg, sub_pos]
  constructor
  · intro h1
    exact ⟨lt_of_le_of_lt (le_max_left _ _) (lt_of_lt_of_le h1 (min_le_right _ _)),
      lt_of_le_of_lt (le_max_right _ _) (lt_of_lt_of_le h1 (min_le_left _ _))⟩
  · rintro ⟨h1, h2⟩
    exact max_lt_iff.mpr ⟨lt_min h h1, lt_min h2 h'⟩

/-- What the program takes for the length of the contact. -/
def shortest (p q : K) : K := if |p| ≤ |q| then |p| else |q|

theorem shortest_eq {p q : K} (hp : p < 0) (hq : 0 < q) : shortest p q = min (-p) q := by
  unfold shortest
  rw [abs_of_neg hp, abs_of_pos hq]
  split_ifs with h
  · rw [min_eq_left h]
  · rw [min_eq_right (le_of_not_ge h)]

theorem overlap_eq (lo hi lo' hi' : K) : overlap lo hi lo' hi' = min (min (hi' - lo) (hi - lo')) (min (hi - lo) (hi' - lo')) := by
  unfold overlap
  rcases le_total hi hi' with h1 | h1 <;> rcases le_total lo lo' with h2 | h2
  · rw [min_eq_left h1, max_eq_right h2]
    rw [min_eq_right (by linarith : hi - lo' ≤ hi' - lo)]
    rw [min_eq_left]
    exact le_min (by linarith) (by linarith)
  · rw [min_eq_left h1, max_eq_left h2, min_eq_left (by linarith : hi - lo ≤ hi' - lo')]
    rw [min_eq_right]
    exact le_min (by linarith) (by linarith)
  · rw [min_eq_right h1, max_eq_right h2, min_eq_right (by linarith : hi' - lo' ≤ hi - lo)]
    rw [min_eq_right]
    exact le_min (by linarith) (by linarith)
  · rw [min_eq_right h1, max_eq_left h2, min_eq_left (by linarith : hi' - lo ≤ hi - lo')]
    rw [min_eq_left]
    exact le_min (by linarith) (by linarith)

/-- The program is right when neither side contains the other strictly, and too large otherwise. -/
theorem shortest_overlap {lo hi lo' hi' : K} (h : 0 < overlap lo hi lo' hi') (hs : lo < hi) (hs' : lo' < hi') :
    (¬ Nested lo hi lo' hi' → shortest (lo - hi') (hi - lo') = overlap lo hi lo' hi') ∧
    (Nested lo hi lo' hi' → overlap lo hi lo' hi' < shortest (lo - hi') (hi - lo')) := by
  obtain ⟨h1, h2⟩ := (overlap_pos hs hs').mp h
  rw [shortest_eq h1 h2, overlap_eq]
  have e : -(lo - hi') = hi' - lo := by ring
  rw [e]
  constructor
  · intro hn
    unfold Nested at hn
    symm
    apply min_eq_left
    rcases le_total hi hi' with a | a
    · by_cases c : lo ≤ lo'
      · exact le_trans (min_le_right _ _) (le_min (by linarith) (by linarith))
      · have : ¬ hi < hi' := fun q => hn (Or.inr ⟨not_le.mp c, q⟩)
        have c := not_le.mp c
        have e2 : hi = hi' := le_antisymm a (not_lt.mp this)
        exact le_trans (min_le_left _ _) (le_min (by linarith) (by linarith))
    · by_cases c : lo' ≤ lo
      · exact le_trans (min_le_left _ _) (le_min (by linarith) (by linarith))
      · have : ¬ hi' < hi := fun q => hn (Or.inl ⟨not_le.mp c, q⟩)
        have c := not_le.mp c
        have e2 : hi' = hi := le_antisymm a (not_lt.mp this)
        exact le_trans (min_le_right _ _) (le_min (by linarith) (by linarith))
  · rintro (⟨a, b⟩ | ⟨a, b⟩)
    · refine lt_of_le_of_lt (le_trans (min_le_right _ _) (min_le_right _ _)) ?_
      exact lt_min (by linarith) (by linarith)
    · refine lt_of_le_of_lt (le_trans (min_le_right _ _) (min_le_left _ _)) ?_
      exact lt_min (by linarith) (by linarith)


instance (a b : Cell K) : Decidable (TouchX a b) := inferInstanceAs (Decidable (_ ∧ _))
instance (a b : Cell K) : Decidable (TouchY a b) := inferInstanceAs (Decidable (_ ∧ _))
instance (a b : Cell K) : Decidable (Overlap a b) := inferInstanceAs (Decidable (_ ∧ _))

/-- Cells of positive size. -/
def Solid (c : Cell K) : Prop := 0 < c.length ∧ 0 < c.width

theorem solid_lt {c : Cell K} (h : Solid c) : c.x0 < c.x1 ∧ c.y0 < c.y1 := by
  obtain ⟨h1, h2⟩ := h
  unfold Cell.length at h1; unfold Cell.width at h2
  exact ⟨by linarith, by linarith⟩

/-- The tests on the four differences. -/
theorem decision {α : Type} {d0 d1 d2 d3 : K} {A B C : Option α} (m02 : d0 * d2 < - Flp.epsilon ↔ d0 < 0 ∧ 0 < d2)
    (m13 : d1 * d3 < - Flp.epsilon ↔ d1 < 0 ∧ 0 < d3) :
    (if d0 = 0 ∨ d1 = 0 ∨ d2 = 0 ∨ d3 = 0 then
      if d0 * d2 + d1 * d3 < - Flp.epsilon then if d0 = 0 ∨ d2 = 0 then A else if d1 = 0 ∨ d3 = 0 then B else C else none
    else none) = if (d0 = 0 ∨ d2 = 0) ∧ d1 < 0 ∧ 0 < d3 then A else if (d1 = 0 ∨ d3 = 0) ∧ d0 < 0 ∧ 0 < d2 then B else none := by
  by_cases p : d0 = 0 ∨ d2 = 0
  · have hz : d0 * d2 = 0 := by rcases p with p | p <;> rw [p] <;> ring
    have c1 : d0 = 0 ∨ d1 = 0 ∨ d2 = 0 ∨ d3 = 0 := by tauto
    rw [if_pos c1, hz, zero_add]
    by_cases q : d1 < 0 ∧ 0 < d3
    · rw [if_pos (m13.mpr q), if_pos p, if_pos ⟨p, q⟩]
    · rw [if_neg (fun hh => q (m13.mp hh)), if_neg (fun hh => q hh.2)]
      have : ¬ ((d1 = 0 ∨ d3 = 0) ∧ d0 < 0 ∧ 0 < d2) := by
        rintro ⟨_, r1, r2⟩
        rcases p with p | p
        · rw [p] at r1; exact lt_irrefl _ r1
        · rw [p] at r2; exact lt_irrefl _ r2
      rw [if_neg this]
  · have c0 : ¬ ((d0 = 0 ∨ d2 = 0) ∧ d1 < 0 ∧ 0 < d3) := fun hh => p hh.1
    rw [if_neg c0]
    by_cases q : d1 = 0 ∨ d3 = 0
    · have hz : d1 * d3 = 0 := by rcases q with q | q <;> rw [q] <;> ring
      have c1 : d0 = 0 ∨ d1 = 0 ∨ d2 = 0 ∨ d3 = 0 := by tauto
      rw [if_pos c1, hz, add_zero]
      by_cases r : d0 < 0 ∧ 0 < d2
      · rw [if_pos (m02.mpr r), if_neg p, if_pos q, if_pos ⟨q, r⟩]
      · rw [if_neg (fun hh => r (m02.mp hh)), if_neg (fun hh => r hh.2)]
    · have c1 : ¬ (d0 = 0 ∨ d1 = 0 ∨ d2 = 0 ∨ d3 = 0) := by tauto
      rw [if_neg c1, if_neg (fun hh => q hh.1)]

/-- What the loop over the pairs of a layer finds. -/
theorem inLayer_spec {cs : List (Cell K)} {ty i j : Nat} (hty : ty = 0 ∨ ty = 4) {a b : Cell K} (hi : cellAt cs i = a) (hj : cellAt cs j = b)
    (ha : Solid a) (hb : Solid b) (h : Apart a b) :
    inLayer cs ty i j = if TouchX a b then some ⟨i, j, shortest (a.y0 - b.y1) (a.y1 - b.y0), 1⟩
      else if TouchY a b then some ⟨i, j, shortest (a.x0 - b.x1) (a.x1 - b.x0), 2⟩ else none := by
  obtain ⟨h0, h1, h2, h3⟩ := h
  obtain ⟨ax, ay⟩ := solid_lt ha
  obtain ⟨bx, by'⟩ := solid_lt hb
  unfold inLayer mink
  rw [hi, hj]
  simp only
  simp only [small_iff h0, small_iff h1, small_iff h2, small_iff h3, smallMul_iff h0 h2, smallMul_iff h1 h3]
  have t1 : ¬ (ty = 1 ∨ ty = 2 ∨ ty = 3) := by omega
  have t2 : ¬ (ty = 1 ∨ ty = 3) := by omega
  rw [if_neg t1, if_neg t2]
  have n02 : a.x0 - b.x1 < a.x1 - b.x0 := by linarith
  have n13 : a.y0 - b.y1 < a.y1 - b.y0 := by linarith
  have m02 := negMul_iff h0 h2 n02
  have m13 := negMul_iff h1 h3 n13
  have hX : TouchX a b ↔ (a.x0 - b.x1 = 0 ∨ a.x1 - b.x0 = 0) ∧ a.y0 - b.y1 < 0 ∧ 0 < a.y1 - b.y0 := by
    unfold TouchX commonY
    rw [overlap_pos ay by', sub_eq_zero, sub_eq_zero, or_comm, eq_comm (a := b.x1)]
  have hY : TouchY a b ↔ (a.y0 - b.y1 = 0 ∨ a.y1 - b.y0 = 0) ∧ a.x0 - b.x1 < 0 ∧ 0 < a.x1 - b.x0 := by
    unfold TouchY commonX
    rw [overlap_pos ax bx, sub_eq_zero, sub_eq_zero, or_comm, eq_comm (a := b.y1)]
  simp only [hX, hY]
  exact decision m02 m13

theorem overlapArea_eq {a b : Cell K} (ha : Solid a) (hb : Solid b) (h : Overlap a b) : overlapArea a b = commonX a b * commonY a b := by
  obtain ⟨ax, ay⟩ := solid_lt ha
  obtain ⟨bx, by'⟩ := solid_lt hb
  obtain ⟨hx, hy⟩ := h
  obtain ⟨p1, p2⟩ := (overlap_pos ax bx).mp hx
  obtain ⟨q1, q2⟩ := (overlap_pos ay by').mp hy
  have e1 := shortest_eq p1 p2
  have e2 := shortest_eq q1 q2
  unfold shortest at e1 e2
  unfold overlapArea mink commonX commonY
  simp only
  rw [e1, e2, overlap_eq, overlap_eq, ← min_def, ← min_def, ← min_def, ← min_def]
  rw [show -(a.x0 - b.x1) = b.x1 - a.x0 by ring, show -(a.y0 - b.y1) = b.y1 - a.y0 by ring]

/-- What the loop over the pairs of two consecutive layers finds. -/
theorem between_spec {cs : List (Cell K)} {i j : Nat} {a b : Cell K} (hi : cellAt cs i = a) (hj : cellAt cs j = b)
    (ha : Solid a) (hb : Solid b) (h : Apart a b) :
    between cs i j = if Overlap a b then some ⟨i, j, commonX a b * commonY a b, 0⟩ else none := by
  have key := overlapArea_eq ha hb
  obtain ⟨h0, h1, h2, h3⟩ := h
  obtain ⟨ax, ay⟩ := solid_lt ha
  obtain ⟨bx, by'⟩ := solid_lt hb
  have n02 : a.x0 - b.x1 < a.x1 - b.x0 := by linarith
  have n13 : a.y0 - b.y1 < a.y1 - b.y0 := by linarith
  have m02 := negMul_iff h0 h2 n02
  have m13 := negMul_iff h1 h3 n13
  have hO : Overlap a b ↔ (a.x0 - b.x1 < 0 ∧ 0 < a.x1 - b.x0) ∧ a.y0 - b.y1 < 0 ∧ 0 < a.y1 - b.y0 := by
    unfold Overlap commonX commonY
    rw [overlap_pos ax bx, overlap_pos ay by']
  have hp : (0 : K) < Flp.epsilon := by unfold Flp.epsilon; norm_num
  unfold between mink
  rw [hi, hj]
  simp only
  by_cases o : Overlap a b
  · obtain ⟨o1, o2⟩ := hO.mp o
    have k1 := m02.mpr o1
    have k2 := m13.mpr o2
    rw [if_pos o, if_pos, if_pos ⟨k1, k2⟩, key o]
    refine ⟨?_, ?_⟩
    · show _ < _; rw [abs_of_neg (by linarith)]; linarith
    · show _ < _; rw [abs_of_neg (by linarith)]; linarith
  · rw [if_neg o]
    have : ¬ ((a.x0 - b.x1) * (a.x1 - b.x0) < - Flp.epsilon ∧ (a.y0 - b.y1) * (a.y1 - b.y0) < - Flp.epsilon) :=
      fun hh => o (hO.mpr ⟨m02.mp hh.1, m13.mp hh.2⟩)
    rw [if_neg this]
    split_ifs <;> rfl

/-! ### Which pairs are connected -/

/-- What the program records for two cells. -/
theorem mem_pairs {nL : Nat} {ty : Nat → Nat} {ls : List (List (Cell K))} {L : List (Conn K)} (hr : Runs (regions nL ty ls) L) (cn : Conn K) :
    cn ∈ L ↔ (∃ l, l ≤ nL ∧ ¬ (l = nL ∧ ty l ≠ 4) ∧ start ls l ≤ cn.node1 ∧ cn.node1 < cn.node2 ∧ cn.node2 < start ls (l + 1) ∧
        inLayer ls.flatten (ty l) cn.node1 cn.node2 = some cn) ∨
      (∃ p ∈ allPairs nL ty, start ls p.1 ≤ cn.node1 ∧ cn.node1 < start ls (p.1 + 1) ∧ start ls p.2 ≤ cn.node2 ∧
        cn.node2 < start ls (p.2 + 1) ∧ between ls.flatten cn.node1 cn.node2 = some cn) := by
  rw [(runs_perm hr).mem_iff]
  unfold sequential
  rw [List.mem_flatMap]
  constructor
  · rintro ⟨r, hr, hc⟩
    rcases List.mem_append.mp hr with hr | hr
    · obtain ⟨l, hl, rfl⟩ := List.mem_map.mp hr
      obtain ⟨hl1, hl2⟩ := List.mem_filter.mp hl
      have := List.mem_range.mp hl1
      exact Or.inl ⟨l, by omega, decide_eq_true_eq.mp hl2, mem_in hc⟩
    · obtain ⟨p, hp, rfl⟩ := List.mem_map.mp hr
      exact Or.inr ⟨p, hp, mem_between hc⟩
  · rintro (⟨l, hl, hf, h1, h2, h3, h4⟩ | ⟨p, hp, h1, h2, h3, h4, h5⟩)
    · refine ⟨_, List.mem_append_left _ (List.mem_map.mpr ⟨l, List.mem_filter.mpr ⟨List.mem_range.mpr (by omega), decide_eq_true_eq.mpr hf⟩, rfl⟩), ?_⟩
      refine List.mem_flatMap.mpr ⟨cn.node1, List.mem_range'_1.mpr (by omega), List.mem_filterMap.mpr ⟨cn.node2, List.mem_range'_1.mpr ?_, h4⟩⟩
      omega
    · refine ⟨_, List.mem_append_right _ (List.mem_map.mpr ⟨p, hp, rfl⟩), ?_⟩
      refine List.mem_flatMap.mpr ⟨cn.node1, List.mem_range'_1.mpr (by omega), List.mem_filterMap.mpr ⟨cn.node2, List.mem_range'_1.mpr ?_, h5⟩⟩
      omega

/-- The same when no layer is the coolant of a 2RM or pin fin channel. -/
theorem mem_regions {nL : Nat} {ty : Nat → Nat} {ls : List (List (Cell K))} {L : List (Conn K)} (hno : ∀ l, ¬ crossing ty l)
    (hr : Runs (regions nL ty ls) L) (cn : Conn K) :
    cn ∈ L ↔ (∃ l, l ≤ nL ∧ ¬ (l = nL ∧ ty l ≠ 4) ∧ start ls l ≤ cn.node1 ∧ cn.node1 < cn.node2 ∧ cn.node2 < start ls (l + 1) ∧
        inLayer ls.flatten (ty l) cn.node1 cn.node2 = some cn) ∨
      (∃ l, 1 ≤ l ∧ l ≤ nL ∧ ¬ (l = nL ∧ ty l ≠ 4) ∧ start ls (l - 1) ≤ cn.node1 ∧ cn.node1 < start ls l ∧ start ls l ≤ cn.node2 ∧
        cn.node2 < start ls (l + 1) ∧ between ls.flatten cn.node1 cn.node2 = some cn) := by
  rw [mem_pairs hr]
  refine or_congr Iff.rfl ?_
  constructor
  · rintro ⟨p, hp, h⟩
    obtain ⟨l, hl, hp⟩ := List.mem_flatMap.mp hp
    obtain ⟨hl1, hl2⟩ := List.mem_filter.mp hl
    have := List.mem_range'_1.mp hl1
    unfold layerPairs at hp
    rw [if_neg (hno l), List.mem_singleton] at hp
    subst hp
    simp only [Nat.sub_add_cancel this.1] at h
    exact ⟨l, by omega, by omega, decide_eq_true_eq.mp hl2, h⟩
  · rintro ⟨l, h1, h2, h3, h⟩
    refine ⟨(l - 1, l), List.mem_flatMap.mpr ⟨l, List.mem_filter.mpr ⟨List.mem_range'_1.mpr (by omega), decide_eq_true_eq.mpr h3⟩, ?_⟩, ?_⟩
    · unfold layerPairs; rw [if_neg (hno l)]; simp
    · simp only [Nat.sub_add_cancel h1]; exact h

theorem posSum_of_mem {n : Nat} {g : TGrid K} {d : Dims K} {cs : List (Cell K)} {L : List (Conn K)} (h : Proper n L) {cn : Conn K} (hc : cn ∈ L) :
    posSum (offDiag g d cs L) cn.node2 cn.node1 = (conductance g d cn (cellAt cs cn.node2) (cellAt cs cn.node1)).1 := by
  induction L with
  | nil => cases hc
  | cons c L ih =>
    have hL : Proper n L := ⟨fun x hx => h.lt x (List.mem_cons_of_mem _ hx), (List.nodup_cons.mp h.once).2⟩
    have hnot := (List.nodup_cons.mp h.once).1
    have hlt := h.lt c List.mem_cons_self
    unfold offDiag at ih ⊢
    rw [List.flatMap_cons, posSum_append]
    have hcn := h.lt cn hc
    rcases List.mem_cons.mp hc with rfl | hc
    · have hz : posSum (L.flatMap (pairOf g d cs)) cn.node2 cn.node1 = 0 := by
        unfold posSum
        rw [List.filter_eq_nil_iff.mpr]; · simp
        intro e he hh
        rw [decide_eq_true_eq] at hh
        obtain ⟨c', hc', h'⟩ := mem_off (g := g) (d := d) (cs := cs) he
        have hlt' := hL.lt c' hc'
        apply hnot
        rw [List.mem_map]
        refine ⟨c', hc', ?_⟩
        rw [Prod.mk.injEq]
        omega
      rw [hz, add_zero]
      unfold pairOf
      rw [posSum_cons, posSum_cons, if_pos ⟨rfl, rfl⟩, if_neg (by simp only; omega)]
      simp [posSum]
    · rw [ih hL hc]
      have hne : ¬ (c.node1 = cn.node1 ∧ c.node2 = cn.node2) := by
        rintro ⟨e1, e2⟩
        apply hnot
        rw [List.mem_map]
        exact ⟨cn, hc, by simp only; rw [e1, e2]⟩
      unfold pairOf
      rw [posSum_cons, posSum_cons, if_neg (fun hh => hne ⟨hh.2, hh.1⟩), if_neg (by simp only; omega)]
      simp [posSum]

theorem posSum_of_not_mem {n : Nat} {g : TGrid K} {d : Dims K} {cs : List (Cell K)} {L : List (Conn K)} (h : Proper n L) {i j : Nat} (hij : i < j)
    (hc : ∀ cn ∈ L, ¬ (cn.node1 = i ∧ cn.node2 = j)) : posSum (offDiag g d cs L) j i = 0 := by
  unfold posSum
  rw [List.filter_eq_nil_iff.mpr]; · simp
  intro e he hh
  rw [decide_eq_true_eq] at hh
  obtain ⟨c', hc', h'⟩ := mem_off (g := g) (d := d) (cs := cs) he
  have hlt' := h.lt c' hc'
  apply hc c' hc'
  omega

end Verif.NU
