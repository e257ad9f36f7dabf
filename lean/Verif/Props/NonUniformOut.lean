import Verif.Lemmas.NuMarks
import Verif.Props.Stats

set_option linter.unusedSectionVars false
set_option linter.unusedSimpArgs false
set_option linter.unusedVariables false

/-! # C55: inspection points on non-uniform grids -/

namespace Verif.NU
open Verif.Dim Verif.TG Verif.Stk Verif.SM

variable {K : Type} [Field K] [LinearOrder K] [IsStrictOrderedRing K]
variable {d0 : Dims K} {decl : Option (Channel K)} {rs : List (Raw K (List (FEl K)))} {ns : List (NElem K)} {G : Grid K}

/-! ## Specification -/

/-- Cell `i` lies in the source layer of the stack element and inside the rectangle. -/
def ElementCell (G : Grid K) (n : NElem K) (r : Rect K) (i : Nat) : Prop :=
  ∃ c, G.cells[i]? = some c ∧ c.layer = sourceLayerOffset n.elem ∧
    r.x ≤ c.x0 ∧ c.x1 ≤ r.x + r.length ∧ r.y ≤ c.y0 ∧ c.y1 ≤ r.y + r.width

/-- `v` is the highest (lowest) of the temperatures of the cells. -/
def IsMax (temps : List K) (cells : Finset Nat) (v : K) : Prop := (∃ i ∈ cells, temps.getD i 0 = v) ∧ ∀ i ∈ cells, temps.getD i 0 ≤ v
def IsMin (temps : List K) (cells : Finset Nat) (v : K) : Prop := (∃ i ∈ cells, temps.getD i 0 = v) ∧ ∀ i ∈ cells, v ≤ temps.getD i 0

/-- What the user expects of a value computed over some cells. -/
def IsStat (temps : List K) (cells : Finset Nat) (q : Out.Quantity) (v : K) : Prop :=
  match q with
  | .maximum => IsMax temps cells v
  | .minimum => IsMin temps cells v
  | .average => v = (∑ i ∈ cells, temps.getD i 0) / (cells.card : K)
  | .gradient => ∃ a b, IsMax temps cells a ∧ IsMin temps cells b ∧ v = a - b
  | .none => False

/-- What is written for an element with the cells `S` of its first rectangle and `k` further rectangles: each of these counts as a
rectangle whose only cell is cell 0 of the stack. -/
def AsWritten (temps : List K) (S : Finset Nat) (k : Nat) (q : Out.Quantity) (v : K) : Prop :=
  match q with
  | .maximum => IsMax temps (if k = 0 then S else insert 0 S) v
  | .minimum => IsMin temps (if k = 0 then S else insert 0 S) v
  | .average => v = ((∑ i ∈ S, temps.getD i 0) / (S.card : K) + k * temps.getD 0 0) / (k + 1)
  | .gradient => ∃ a b, IsMax temps (if k = 0 then S else insert 0 S) a ∧ IsMin temps (if k = 0 then S else insert 0 S) b ∧ v = a - b
  | .none => False

/-- No two rectangles overlap. -/
def NoOverlap (es : List (FEl K)) : Prop := ∀ x y, (es.map (·.rect)).countP (inRect x y) ≤ 1

/-! ## Proofs -/

theorem countP_unique {α : Type} (p : α → Bool) : ∀ (l : List α), l.countP p ≤ 1 → ∀ (i j : Nat) (a b : α), l[i]? = some a → l[j]? = some b →
    p a = true → p b = true → i = j
  | [], _, i, _, _, _, h, _, _, _ => by simp at h
  | x :: l, h, i, j, a, b, hi, hj, ha, hb => by
    rw [List.countP_cons] at h
    have hz : p x = true → ∀ (k : Nat) c, l[k]? = some c → p c = true → False := by
      intro hx k c hk hc
      rw [if_pos hx] at h
      have h0 : l.countP p = 0 := by omega
      exact List.countP_eq_zero.mp h0 c (List.mem_of_getElem? hk) hc
    cases i with
    | zero =>
      cases j with
      | zero => rfl
      | succ j =>
        rw [List.getElem?_cons_zero] at hi
        rw [List.getElem?_cons_succ] at hj
        exact absurd (hz (by rw [Option.some.inj hi]; exact ha) j b hj hb) id
    | succ i =>
      cases j with
      | zero =>
        rw [List.getElem?_cons_zero] at hj
        rw [List.getElem?_cons_succ] at hi
        exact absurd (hz (by rw [Option.some.inj hj]; exact hb) i a hi ha) id
      | succ j =>
        rw [List.getElem?_cons_succ] at hi hj
        rw [countP_unique p l (by split_ifs at h <;> omega) i j a b hi hj ha hb]

theorem fixEl_rect (n : NElem K) (e : FEl K) : (fixEl n e).rect = e.rect := by unfold fixEl; split_ifs <;> rfl
theorem fixEl_others (n : NElem K) (e : FEl K) : (fixEl n e).others = e.others := by unfold fixEl; split_ifs <;> rfl

theorem fixEl_pos {n : NElem K} {b : Die K (List (FEl K))} (hb : n.elem.body = .die b) (hd : Divided n) {e : FEl K} (he : e ∈ b.flp) :
    0 < e.rect.length ∧ 0 < e.rect.width ∧ 0 < (fixEl n e).dx ∧ 0 < (fixEl n e).dy := by
  unfold Divided at hd
  rw [hb] at hd
  obtain ⟨h1, h2, h3⟩ := hd e he
  refine ⟨h1, h2, ?_⟩
  unfold fixEl
  split_ifs with c
  · omega
  · simp only; omega

/-- A part of a rectangle: a cell inside it, with its lower left corner in it. -/
theorem inPart_inside {r : Rect K} {nx ny s : Nat} {c : Cell K} (hx : 0 < r.length) (hy : 0 < r.width) (hs : s < nx * ny)
    (h : InPart r nx ny s c) : r.x ≤ c.x0 ∧ c.x0 < c.x1 ∧ c.x1 ≤ r.x + r.length ∧ r.y ≤ c.y0 ∧ c.y0 < c.y1 ∧ c.y1 ≤ r.y + r.width := by
  obtain ⟨h1, h2, h3, h4⟩ := h
  have hnx : 0 < nx := by rcases Nat.eq_zero_or_pos nx with h | h; · rw [h] at hs; simp at hs
                          · exact h
  have hny : 0 < ny := by rcases Nat.eq_zero_or_pos ny with h | h; · rw [h] at hs; simp at hs
                          · exact h
  have key : ∀ (L : K) (n k : Nat), 0 < L → k < n → 0 ≤ L / n * (k : Nat) ∧ L / n * (k : Nat) < L / n * (k + 1 : Nat) ∧ L / n * (k + 1 : Nat) ≤ L := by
    intro L n k hL hk
    have hn' : (0 : K) < n := by exact_mod_cast (by omega : 0 < n)
    have hq : 0 < L / (n : K) := by positivity
    refine ⟨by positivity, ?_, ?_⟩
    · have : (k : K) < ((k + 1 : Nat) : K) := by exact_mod_cast Nat.lt_succ_self k
      exact mul_lt_mul_of_pos_left this hq
    · have h2 : ((k + 1 : Nat) : K) ≤ (n : K) := by exact_mod_cast hk
      have h3 := mul_le_mul_of_nonneg_left h2 hq.le
      rwa [div_mul_cancel₀ _ (ne_of_gt hn')] at h3
  obtain ⟨a1, a2, a3⟩ := key r.length nx (s % nx) hx (Nat.mod_lt _ hnx)
  obtain ⟨b1, b2, b3⟩ := key r.width ny (s / nx) hy (Nat.div_lt_of_lt_mul hs)
  rw [h1, h2, h3, h4]
  refine ⟨?_, ?_, ?_, ?_, ?_, ?_⟩ <;> linarith

theorem split_at {α : Type} {l : List α} {j : Nat} {e : α} (h : l[j]? = some e) : ∃ A B, l = A ++ e :: B ∧ A.length = j := by
  obtain ⟨hj, rfl⟩ := List.getElem?_eq_some_iff.mp h
  exact ⟨l.take j, l.drop (j + 1), by rw [← List.drop_eq_getElem_cons hj, List.take_append_drop], by rw [List.length_take]; omega⟩

theorem flatten_get (ls : List (List (Cell K))) {l : Nat} {lc : List (Cell K)} (hlc : ls[l]? = some lc) {s : Nat} (hs : s < lc.length) :
    ls.flatten[start ls l + s]? = lc[s]? := by
  rw [← List.getElem?_drop, drop_start]
  have hlt := (List.getElem?_eq_some_iff.mp hlc).1
  rw [List.drop_eq_getElem_cons hlt, (List.getElem?_eq_some_iff.mp hlc).2, List.flatten_cons, List.getElem?_append_left hs]

/-- The marks of an element delimit exactly its cells. -/
theorem mark_cells (hf : FromStack d0 decl rs ns G) {k : Nat} {n : NElem K} (hn : ns[k]? = some n) {b : Die K (List (FEl K))}
    (hb : n.elem.body = .die b) (hd : Divided n) (hno : NoOverlap b.flp) {j : Nat} {e : FEl K} (he : b.flp[j]? = some e) :
    ∃ m, (dieMarks G.d (ns.map fixDiscr) k)[j]? = some (rectMarks (fixEl n e) m) ∧ m.1 ∈ m.cells ∧ m.1 ≤ m.2 ∧
      ∀ i, i ∈ m.cells ↔ ElementCell G n e.rect i := by
  obtain ⟨hl, hfl, hmk⟩ := die_at hf hn hb
  have hf0 : FromStack d0 decl rs ns { G with flps := (ns.map fixDiscr).flatMap fun n => blockFlp n.elem.body } := by
    obtain ⟨p, g, fl0, h1, h2, h3, h4⟩ := hf.parsed
    exact ⟨p, g, fl0, h1, h2, h3, h4.trans hf.flpsEq⟩
  obtain ⟨lc, hlc, hlen, hget⟩ := floorplan_cells hf0 hfl
  have hej : (b.flp.map (fixEl n))[j]? = some (fixEl n e) := by rw [List.getElem?_map, he]; rfl
  obtain ⟨A, B, hAB, hA⟩ := split_at hej
  obtain ⟨hp1, hp2, hp3, hp4⟩ := fixEl_pos hb hd (List.mem_of_getElem? he)
  have hpos : 0 < (fixEl n e).dx * (fixEl n e).dy := Nat.mul_pos hp3 hp4
  set L := sourceLayerOffset n.elem with hL
  set f := fixEl n e with hfdef
  have hfr : f.rect = e.rect := fixEl_rect n e
  refine ⟨(start G.ls L + cellsOf A, start G.ls L + cellsOf A + f.dx * f.dy - 1), ?_, ?_, ?_, ?_⟩
  · unfold dieMarks
    rw [List.getElem?_map, hn, Option.map_some, fixed_die hb]
    simp only
    rw [List.getD_eq_getElem?_getD, hmk, Option.getD_some, List.getElem?_zipWith, hej]
    have := markEls_at (start G.ls L) A f B
    rw [← hAB, hA] at this
    rw [this]
  · unfold Mark.cells
    rw [List.mem_range']
    exact ⟨0, by simp only; omega, by simp⟩
  · simp only; omega
  · have hcells : ∀ s, s < lc.length → G.cells[start G.ls L + s]? = lc[s]? := fun s hs => flatten_get G.ls hlc hs
    have hmem : ∀ i, i ∈ Mark.cells (start G.ls L + cellsOf A, start G.ls L + cellsOf A + f.dx * f.dy - 1) ↔
        ∃ s, s < f.dx * f.dy ∧ i = start G.ls L + cellsOf A + s := by
      intro i
      unfold Mark.cells
      rw [List.mem_range']
      constructor
      · rintro ⟨s, hs, rfl⟩; simp only at hs ⊢; exact ⟨s, by omega, by omega⟩
      · rintro ⟨s, hs, rfl⟩; exact ⟨s, by simp only; omega, by simp⟩
    have hsum : cellsOf (b.flp.map (fixEl n)) = cellsOf A + (f.dx * f.dy + cellsOf B) := by
      rw [hAB]; unfold cellsOf; rw [List.map_append, List.sum_append, List.map_cons, List.sum_cons]
    intro i
    rw [hmem]
    constructor
    · rintro ⟨s, hs, rfl⟩
      obtain ⟨c, hc, hin, -⟩ := hget A f B hAB s hs
      refine ⟨c, ?_, hf.layered L lc hlc c (List.mem_of_getElem? hc), ?_⟩
      · rw [Nat.add_assoc, hcells _ (by omega), hc]
      · rw [hfr] at hin
        obtain ⟨q1, -, q3, q4, -, q6⟩ := inPart_inside hp1 hp2 hs hin
        exact ⟨q1, q3, q4, q6⟩
    · rintro ⟨c, hc, hlay, q1, q2, q3, q4⟩
      have hloc := locate hf hc (lc := lc) (by rw [hlay]; exact hlc)
      rw [hlay] at hloc
      have hfc : firstCell G L = start G.ls L := rfl
      rw [← hL, hfc] at hloc
      obtain ⟨s, rfl⟩ := Nat.exists_eq_add_of_le hloc.1
      have hslt : s < lc.length := by omega
      obtain ⟨A', e', B', s', h1, h2, h3⟩ := cellsOf_locate (b.flp.map (fixEl n)) (s := s) (by omega)
      obtain ⟨c', hc', hin', -⟩ := hget A' e' B' h1 s' h3
      rw [hcells s hslt, h2, hc'] at hc
      obtain rfl := Option.some.inj hc
      have hget' : (b.flp.map (fixEl n))[A'.length]? = some e' := by rw [h1]; simp
      rw [List.getElem?_map] at hget'
      obtain ⟨e0, he0, rfl⟩ := Option.map_eq_some_iff.mp hget'
      obtain ⟨p1, p2, -, -⟩ := fixEl_pos hb hd (List.mem_of_getElem? he0)
      rw [fixEl_rect] at hin'
      obtain ⟨r1, r2, r3, r4, r5, r6⟩ := inPart_inside p1 p2 h3 hin'
      have hij := countP_unique (inRect c'.x0 c'.y0) _ (hno c'.x0 c'.y0) j A'.length e.rect e0.rect (by rw [List.getElem?_map, he]; rfl)
        (by rw [List.getElem?_map, he0]; rfl)
        (by unfold inRect; rw [decide_eq_true_eq]; exact ⟨q1, by linarith, q3, by linarith⟩)
        (by unfold inRect; rw [decide_eq_true_eq]; exact ⟨r1, by linarith, r4, by linarith⟩)
      have hAA : A' = A := by
        have t1 : A' = (b.flp.map (fixEl n)).take A'.length := by rw [h1]; simp
        have t2 : A = (b.flp.map (fixEl n)).take A.length := by rw [hAB]; simp
        rw [t1, t2, ← hij, hA]
      have hee : fixEl n e0 = f := by
        rw [← hij, he] at he0
        rw [hfdef, Option.some.inj he0]
      rw [hAA] at h2
      rw [hee] at h3
      exact ⟨s', h3, by omega⟩

theorem stat_many (temps : List K) (m : Mark) (hm : m.1 ∈ m.cells) (k : Nat) (q : Out.Quantity) (hq : q ≠ .none) :
    ∃ v, statNU temps q (m :: List.replicate k noMark) = some v ∧ AsWritten temps m.cells.toFinset k q v := by
  have hnd : m.cells.Nodup := List.nodup_range'
  have e0 : maxMark temps noMark = temps.getD 0 0 ∧ minMark temps noMark = temps.getD 0 0 ∧ avgMark temps noMark = temps.getD 0 0 := by
    simp [maxMark, minMark, avgMark, noMark, Mark.cells, tAt]
  have fmax : ∀ (k : Nat) (t : K), (List.replicate k noMark).foldl (fun t i => if maxMark temps i > t then maxMark temps i else t) t =
      if k = 0 then t else max t (temps.getD 0 0) := by
    intro k
    induction k with
    | zero => intro t; rfl
    | succ k ih =>
      intro t
      rw [List.replicate_succ, List.foldl_cons, ih, e0.1, if_neg (Nat.succ_ne_zero k)]
      by_cases h : temps.getD 0 0 > t
      · rw [if_pos h, max_self, ite_self, max_eq_right h.le]
      · rw [if_neg h, max_eq_left (not_lt.mp h), ite_self]
  have fmin : ∀ (k : Nat) (t : K), (List.replicate k noMark).foldl (fun t i => if minMark temps i < t then minMark temps i else t) t =
      if k = 0 then t else min t (temps.getD 0 0) := by
    intro k
    induction k with
    | zero => intro t; rfl
    | succ k ih =>
      intro t
      rw [List.replicate_succ, List.foldl_cons, ih, e0.2.1, if_neg (Nat.succ_ne_zero k)]
      by_cases h : temps.getD 0 0 < t
      · rw [if_pos h, min_self, ite_self, min_eq_right h.le]
      · rw [if_neg h, min_eq_left (not_lt.mp h), ite_self]
  have gmax : ∀ (k : Nat) (t : K), (List.replicate k noMark).foldl (fun t i => max t (maxMark temps i)) t = if k = 0 then t else max t (temps.getD 0 0) := by
    intro k
    induction k with
    | zero => intro t; rfl
    | succ k ih =>
      intro t
      rw [List.replicate_succ, List.foldl_cons, ih, e0.1, if_neg (Nat.succ_ne_zero k), max_assoc, max_self, ite_self]
  have gmin : ∀ (k : Nat) (t : K), (List.replicate k noMark).foldl (fun t i => min t (minMark temps i)) t = if k = 0 then t else min t (temps.getD 0 0) := by
    intro k
    induction k with
    | zero => intro t; rfl
    | succ k ih =>
      intro t
      rw [List.replicate_succ, List.foldl_cons, ih, e0.2.1, if_neg (Nat.succ_ne_zero k), min_assoc, min_self, ite_self]
  have fsum : ∀ (k : Nat) (t : K), (List.replicate k noMark).foldl (fun s i => s + avgMark temps i) t = t + k * temps.getD 0 0 := by
    intro k
    induction k with
    | zero => intro t; simp
    | succ k ih =>
      intro t
      rw [List.replicate_succ, List.foldl_cons, ih, e0.2.2]
      push_cast; ring
  have hmax0 : IsMax temps m.cells.toFinset (maxMark temps m) := by
    obtain ⟨h1, h2, h3⟩ := Flp.foldl_max_spec (tAt temps) m.cells (tAt temps m.1)
    refine ⟨?_, fun i hi => h2 i (List.mem_toFinset.mp hi)⟩
    rcases h3 with h3 | ⟨i, hi, h3⟩
    · exact ⟨m.1, List.mem_toFinset.mpr hm, h3.symm⟩
    · exact ⟨i, List.mem_toFinset.mpr hi, h3.symm⟩
  have hmin0 : IsMin temps m.cells.toFinset (minMark temps m) := by
    obtain ⟨h1, h2, h3⟩ := Flp.foldl_min_spec (tAt temps) m.cells (tAt temps m.1)
    refine ⟨?_, fun i hi => h2 i (List.mem_toFinset.mp hi)⟩
    rcases h3 with h3 | ⟨i, hi, h3⟩
    · exact ⟨m.1, List.mem_toFinset.mpr hm, h3.symm⟩
    · exact ⟨i, List.mem_toFinset.mpr hi, h3.symm⟩
  have hmax : IsMax temps (if k = 0 then m.cells.toFinset else insert 0 m.cells.toFinset) (if k = 0 then maxMark temps m else max (maxMark temps m) (temps.getD 0 0)) := by
    by_cases hk : k = 0
    · rw [if_pos hk, if_pos hk]; exact hmax0
    · rw [if_neg hk, if_neg hk]
      obtain ⟨⟨i, hi, h1⟩, h2⟩ := hmax0
      refine ⟨?_, ?_⟩
      · rcases le_total (maxMark temps m) (temps.getD 0 0) with h | h
        · exact ⟨0, Finset.mem_insert_self _ _, (max_eq_right h).symm⟩
        · exact ⟨i, Finset.mem_insert_of_mem hi, h1.trans (max_eq_left h).symm⟩
      · intro j hj
        rcases Finset.mem_insert.mp hj with rfl | hj
        · exact le_max_right _ _
        · exact (h2 j hj).trans (le_max_left _ _)
  have hmin : IsMin temps (if k = 0 then m.cells.toFinset else insert 0 m.cells.toFinset) (if k = 0 then minMark temps m else min (minMark temps m) (temps.getD 0 0)) := by
    by_cases hk : k = 0
    · rw [if_pos hk, if_pos hk]; exact hmin0
    · rw [if_neg hk, if_neg hk]
      obtain ⟨⟨i, hi, h1⟩, h2⟩ := hmin0
      refine ⟨?_, ?_⟩
      · rcases le_total (minMark temps m) (temps.getD 0 0) with h | h
        · exact ⟨i, Finset.mem_insert_of_mem hi, h1.trans (min_eq_left h).symm⟩
        · exact ⟨0, Finset.mem_insert_self _ _, (min_eq_right h).symm⟩
      · intro j hj
        rcases Finset.mem_insert.mp hj with rfl | hj
        · exact min_le_right _ _
        · exact (min_le_left _ _).trans (h2 j hj)
  cases q with
  | none => exact absurd rfl hq
  | maximum => exact ⟨_, congrArg some (fmax k _), hmax⟩
  | minimum => exact ⟨_, congrArg some (fmin k _), hmin⟩
  | gradient => exact ⟨_, congrArg some (congrArg₂ (· - ·) (gmax k _) (gmin k _)), _, _, hmax, hmin, rfl⟩
  | average =>
    refine ⟨_, rfl, ?_⟩
    show avgNU temps _ = _
    have hfold : ∀ (l : List Nat) (z : K), l.foldl (fun s i => s + tAt temps i) z = z + (l.map (tAt temps)).sum := by
      intro l
      induction l with
      | nil => intro z; simp
      | cons a l ih => intro z; rw [List.foldl_cons, ih, List.map_cons, List.sum_cons, add_assoc]
    unfold avgNU
    rw [List.foldl_cons, fsum, zero_add]
    unfold avgMark
    rw [hfold, zero_add, List.sum_toFinset _ hnd, List.toFinset_card_of_nodup hnd, List.length_cons, List.length_replicate, Nat.cast_add, Nat.cast_one]
    rfl

theorem written_single {temps : List K} {S : Finset Nat} {q : Out.Quantity} {v : K} (h : AsWritten temps S 0 q v) : IsStat temps S q v := by
  unfold AsWritten at h
  unfold IsStat
  cases q <;> simp only [if_true] at h ⊢ <;> first | exact h | skip
  rw [h]; simp

/-! ## C55 -/

/-- The line written for a floorplan element holds the quantity asked for, over exactly the cells of the source layer of the die that lie
inside its first rectangle (there is at least one), and over cell 0 of the stack for each further rectangle. -/
theorem C55_element_written (hf : FromStack d0 decl rs ns G) {k : Nat} {n : NElem K} (hn : ns[k]? = some n) {b : Die K (List (FEl K))}
    (hb : n.elem.body = .die b) (hd : Divided n) (hno : NoOverlap b.flp) {j : Nat} {e : FEl K} (he : b.flp[j]? = some e)
    (temps sources : List K) (time : K) {q : Out.Quantity} (hq : q ≠ .none) :
    ∃ el v, ∃ S : Finset Nat, (dieMarks G.d (ns.map fixDiscr) k)[j]? = some el ∧
      renderNU G.cells temps sources time q (.tflpel el) = some (.line time [v]) ∧
      S.Nonempty ∧ (∀ i, i ∈ S ↔ ElementCell G n e.rect i) ∧ AsWritten temps S e.others.length q v := by
  obtain ⟨m, h1, h2, -, h3⟩ := mark_cells hf hn hb hd hno he
  obtain ⟨v, hv, hs⟩ := stat_many temps m h2 e.others.length q hq
  have hr : rectMarks (fixEl n e) m = m :: List.replicate e.others.length noMark := by
    unfold rectMarks; rw [fixEl_others, List.map_const']
  refine ⟨_, v, m.cells.toFinset, h1, ?_, ⟨m.1, List.mem_toFinset.mpr h2⟩, ?_, hs⟩
  · rw [hr]
    show (statNU temps q _).map _ = _
    rw [hv]; rfl
  · intro i; rw [List.mem_toFinset]; exact h3 i

/-- The line written for a floorplan element made of one rectangle holds the quantity asked for, over exactly the cells of the
source layer of the die that lie inside the rectangle; there is at least one. -/
theorem C55_element_statistics_partial (hf : FromStack d0 decl rs ns G) {k : Nat} {n : NElem K} (hn : ns[k]? = some n) {b : Die K (List (FEl K))}
    (hb : n.elem.body = .die b) (hd : Divided n) (hno : NoOverlap b.flp) {j : Nat} {e : FEl K} (he : b.flp[j]? = some e)
    (hone : e.others = []) (temps sources : List K) (time : K) {q : Out.Quantity} (hq : q ≠ .none) :
    ∃ el v, ∃ S : Finset Nat, (dieMarks G.d (ns.map fixDiscr) k)[j]? = some el ∧
      renderNU G.cells temps sources time q (.tflpel el) = some (.line time [v]) ∧
      S.Nonempty ∧ (∀ i, i ∈ S ↔ ElementCell G n e.rect i) ∧ IsStat temps S q v := by
  obtain ⟨el, v, S, h1, h2, h3, h4, h5⟩ := C55_element_written hf hn hb hd hno he temps sources time hq
  rw [hone] at h5
  exact ⟨el, v, S, h1, h2, h3, h4, written_single h5⟩

/-- The line written for a whole floorplan holds one such value for each element, in the order of the floorplan. -/
theorem C55_floorplan_written (hf : FromStack d0 decl rs ns G) {k : Nat} {n : NElem K} (hn : ns[k]? = some n) {b : Die K (List (FEl K))}
    (hb : n.elem.body = .die b) (hd : Divided n) (hno : NoOverlap b.flp)
    (temps sources : List K) (time : K) {q : Out.Quantity} (hq : q ≠ .none) :
    ∃ vs, renderNU G.cells temps sources time q (.tflp (dieMarks G.d (ns.map fixDiscr) k)) = some (.line time vs) ∧
      vs.length = b.flp.length ∧ ∀ (j : Nat) e, b.flp[j]? = some e →
        ∃ v, ∃ S : Finset Nat, vs[j]? = some v ∧ S.Nonempty ∧ (∀ i, i ∈ S ↔ ElementCell G n e.rect i) ∧ AsWritten temps S e.others.length q v := by
  have hlen : (dieMarks G.d (ns.map fixDiscr) k).length = b.flp.length := by
    obtain ⟨-, -, hmk⟩ := die_at hf hn hb
    unfold dieMarks
    rw [List.getElem?_map, hn, Option.map_some, fixed_die hb]
    simp only
    rw [List.getD_eq_getElem?_getD, hmk, Option.getD_some, List.length_zipWith]
    have : ∀ (es : List (FEl K)) pos, (markEls pos es).length = es.length := by
      intro es
      induction es with
      | nil => intro _; rfl
      | cons e es ih => intro pos; unfold markEls; rw [List.length_cons, List.length_cons, ih]
    rw [this, Nat.min_self, List.length_map]
  have hstat : ∀ el ∈ dieMarks G.d (ns.map fixDiscr) k, statNU temps q el = some ((statNU temps q el).getD 0) := by
    intro el hel
    obtain ⟨j, hj, rfl⟩ := List.mem_iff_getElem.mp hel
    obtain ⟨e, he⟩ : ∃ e, b.flp[j]? = some e := ⟨_, List.getElem?_eq_getElem (by omega)⟩
    obtain ⟨el', v, S, h1, h2, -⟩ := C55_element_written hf hn hb hd hno he temps sources time hq
    rw [List.getElem?_eq_getElem hj] at h1
    rw [Option.some.inj h1]
    unfold renderNU at h2
    simp only at h2
    cases hs : statNU temps q el' with
    | none => rw [hs] at h2; cases h2
    | some w => rfl
  have hmap : (dieMarks G.d (ns.map fixDiscr) k).filterMap (statNU temps q) = (dieMarks G.d (ns.map fixDiscr) k).map fun el => (statNU temps q el).getD 0 := by
    refine (List.filterMap_congr fun el hel => hstat el hel).trans ?_
    exact congrFun (List.filterMap_eq_map (f := fun el => (statNU temps q el).getD 0)) _
  refine ⟨_, rfl, by rw [hmap, List.length_map, hlen], ?_⟩
  intro j e he
  obtain ⟨el, v, S, h1, h2, h3, h4, h5⟩ := C55_element_written hf hn hb hd hno he temps sources time hq
  refine ⟨v, S, ?_, h3, h4, h5⟩
  rw [hmap, List.getElem?_map, h1]
  unfold renderNU at h2
  simp only at h2
  cases hs : statNU temps q el with
  | none => rw [hs] at h2; cases h2
  | some w =>
    rw [hs] at h2
    simp only [Option.map_some, Option.some.injEq, Out.Record.line.injEq, List.cons.injEq, and_true, true_and] at h2
    simp [hs, h2]

/-- The line written for a whole floorplan (of elements with one rectangle) holds one such value for each element, in the order of the floorplan. -/
theorem C55_floorplan_statistics_partial (hf : FromStack d0 decl rs ns G) {k : Nat} {n : NElem K} (hn : ns[k]? = some n) {b : Die K (List (FEl K))}
    (hb : n.elem.body = .die b) (hd : Divided n) (hno : NoOverlap b.flp) (hone : ∀ e ∈ b.flp, e.others = [])
    (temps sources : List K) (time : K) {q : Out.Quantity} (hq : q ≠ .none) :
    ∃ vs, renderNU G.cells temps sources time q (.tflp (dieMarks G.d (ns.map fixDiscr) k)) = some (.line time vs) ∧
      vs.length = b.flp.length ∧ ∀ (j : Nat) e, b.flp[j]? = some e →
        ∃ v, ∃ S : Finset Nat, vs[j]? = some v ∧ S.Nonempty ∧ (∀ i, i ∈ S ↔ ElementCell G n e.rect i) ∧ IsStat temps S q v := by
  obtain ⟨vs, h1, h2, h3⟩ := C55_floorplan_written hf hn hb hd hno temps sources time hq
  refine ⟨vs, h1, h2, fun j e he => ?_⟩
  obtain ⟨v, S, k1, k2, k3, k4⟩ := h3 j e he
  rw [hone e (List.mem_of_getElem? he)] at k4
  exact ⟨v, S, k1, k2, k3, written_single k4⟩

/-- A probe reports the temperature of the cell of its layer that contains the point, if there is exactly one. -/
theorem C55_probe_partial (cs : List (Cell K)) (layer : Nat) (x y : K) (temps sources : List K) (time : K) (q : Out.Quantity)
    {i : Nat} {c : Cell K} (hi : cs[i]? = some c) (hl : c.layer = layer) (hin : inCell x y c = true)
    (huniq : (cs.filter fun c => decide (c.layer = layer)).countP (inCell x y) = 1) :
    renderNU cs temps sources time q (.tcell layer x y) = some (.line time [temps.getD i 0]) := by
  have hp : ∀ c : Cell K, decide (c.layer = layer ∧ x ≥ c.x0 ∧ x < c.x0 + c.length ∧ y ≥ c.y0 ∧ y < c.y0 + c.width) =
      (decide (c.layer = layer) && inCell x y c) := by
    intro c
    unfold inCell Cell.length Cell.width
    rw [add_sub_cancel, add_sub_cancel, Bool.decide_and]
  have hcount : cs.countP (fun c => decide (c.layer = layer) && inCell x y c) = 1 := by
    rw [List.countP_filter] at huniq
    rw [← huniq]
    refine List.countP_congr fun c _ => ?_
    rw [Bool.and_comm]
  have hidx : probeIndex cs layer x y = i := by
    unfold probeIndex
    simp only [hp]
    obtain ⟨j, hj⟩ : ∃ j, cs.findIdx? (fun c => decide (c.layer = layer) && inCell x y c) = some j := by
      cases h : cs.findIdx? (fun c => decide (c.layer = layer) && inCell x y c) with
      | some j => exact ⟨j, rfl⟩
      | none =>
        rw [List.findIdx?_eq_none_iff] at h
        have := h c (List.mem_of_getElem? hi)
        simp [hl, hin] at this
    rw [hj, Option.getD_some]
    obtain ⟨hlt, hjp, -⟩ := List.findIdx?_eq_some_iff_getElem.mp hj
    exact countP_unique _ cs (le_of_eq hcount) j i _ c (List.getElem?_eq_getElem hlt) hi hjp (by simp [hl, hin])
  show some (Out.Record.line time [tAt temps (probeIndex cs layer x y)]) = _
  rw [hidx]; rfl

/-- A probe at a point that lies in one cell of its layer. -/
theorem probe_of_count (hf : FromStack d0 decl rs ns G) {x y : K} {l : Nat} {lc : List (Cell K)} (hlc : G.ls[l]? = some lc)
    (hcount : lc.countP (inCell x y) = 1) (temps sources : List K) (time : K) (q : Out.Quantity) :
    ∃ i c, G.cells[i]? = some c ∧ c.layer = l ∧ inCell x y c = true ∧
      (∀ i' c', G.cells[i']? = some c' → c'.layer = l → inCell x y c' = true → i' = i) ∧
      renderNU G.cells temps sources time q (.tcell l x y) = some (.line time [temps.getD i 0]) := by
  have hfil : (G.cells.filter fun c => decide (c.layer = l)) = lc := filter_layer hf.layered hlc
  obtain ⟨c, hcm, hcin⟩ := List.countP_pos_iff.mp (show 0 < lc.countP (inCell x y) by omega)
  have hlay := hf.layered l lc hlc c hcm
  have hmem : c ∈ G.cells := by rw [← hfil] at hcm; exact List.mem_of_mem_filter hcm
  obtain ⟨i, hi, hie⟩ := List.mem_iff_getElem.mp hmem
  have hi' : G.cells[i]? = some c := by rw [List.getElem?_eq_getElem hi, hie]
  refine ⟨i, c, hi', hlay, hcin, ?_, ?_⟩
  · intro i' c' h1 h2 h3
    have hcp : G.cells.countP (fun c => inCell x y c && decide (c.layer = l)) = 1 := by
      rw [← hcount, ← hfil, List.countP_filter]
    exact countP_unique _ G.cells (le_of_eq hcp) i' i c' c h1 hi' (by simp [h2, h3]) (by simp [hlay, hcin])
  · exact C55_probe_partial G.cells l x y temps sources time q hi' hlay hcin (by rw [hfil]; exact hcount)

/-- So a probe in the chip reports the temperature of the only cell of its layer that contains the point, when the point lies in the
first rectangle of exactly one floorplan element of each die. (Without channels; `C55_probe_in_stack` is the same for all stacks.) -/
theorem C55_probe_in_stack_partial (hf : FromFile d0 rs ns G) (hc : 0 < G.d.chipLength ∧ 0 < G.d.chipWidth) (hd : ∀ n ∈ ns, Divided n)
    (x y : K) (hx : 0 ≤ x ∧ x < G.d.chipLength) (hy : 0 ≤ y ∧ y < G.d.chipWidth)
    (hone : ∀ n ∈ ns, ∀ b, n.elem.body = .die b → (b.flp.map (·.rect)).countP (inRect x y) = 1) {l : Nat} (hl : l < G.d.nLayers)
    (temps sources : List K) (time : K) (q : Out.Quantity) :
    ∃ i c, G.cells[i]? = some c ∧ c.layer = l ∧ inCell x y c = true ∧
      (∀ i' c', G.cells[i']? = some c' → c'.layer = l → inCell x y c' = true → i' = i) ∧
      renderNU G.cells temps sources time q (.tcell l x y) = some (.line time [temps.getD i 0]) := by
  obtain ⟨lc, hlc, hcount⟩ := C54_one_cell_per_point_partial hf hc hd x y hx hy hone hl
  exact probe_of_count hf.stack hlc hcount temps sources time q

theorem zipIdx_layer (ls : List (List (Cell K))) (a l : Nat) (hlay : ∀ (k : Nat) lc, ls[k]? = some lc → ∀ c ∈ lc, c.layer = a + k)
    {lc : List (Cell K)} (hlc : ls[l]? = some lc) (pos : Nat) :
    ((ls.flatten.zipIdx pos).filter fun p => decide (p.1.layer = a + l)).map (·.2) =
      List.range' (pos + ((ls.take l).map List.length).sum) lc.length := by
  induction ls generalizing a l pos with
  | nil => simp at hlc
  | cons L ls ih =>
    rw [List.flatten_cons, List.zipIdx_append, List.filter_append, List.map_append]
    have hL : ∀ c ∈ L, c.layer = a := fun c hc => hlay 0 L rfl c hc
    have hrest : ∀ (k : Nat) lc, ls[k]? = some lc → ∀ c ∈ lc, c.layer = (a + 1) + k := by
      intro k lc hk c hc
      rw [hlay (k + 1) lc (by rw [List.getElem?_cons_succ]; exact hk) c hc]; omega
    cases l with
    | zero =>
      rw [List.getElem?_cons_zero] at hlc
      obtain rfl := Option.some.inj hlc
      have h1 : (L.zipIdx pos).filter (fun p => decide (p.1.layer = a + 0)) = L.zipIdx pos := by
        rw [List.filter_eq_self]
        intro p hp
        have := List.fst_mem_of_mem_zipIdx hp
        simp [hL _ this]
      have h2 : (ls.flatten.zipIdx (pos + L.length)).filter (fun p => decide (p.1.layer = a + 0)) = [] := by
        rw [List.filter_eq_nil_iff]
        intro p hp
        have hm := List.fst_mem_of_mem_zipIdx hp
        obtain ⟨lc', hlc', hc⟩ := List.mem_flatten.mp hm
        obtain ⟨k, hk, rfl⟩ := List.mem_iff_getElem.mp hlc'
        have := hrest k _ (List.getElem?_eq_getElem hk) _ hc
        rw [decide_eq_true_eq]; omega
      rw [h1, h2, List.map_nil, List.append_nil, List.zipIdx_map_snd]
      simp
    | succ l =>
      rw [List.getElem?_cons_succ] at hlc
      have h1 : (L.zipIdx pos).filter (fun p => decide (p.1.layer = a + (l + 1))) = [] := by
        rw [List.filter_eq_nil_iff]
        intro p hp
        have := hL _ (List.fst_mem_of_mem_zipIdx hp)
        rw [decide_eq_true_eq]; omega
      have hh := ih (a + 1) l hrest hlc (pos + L.length)
      have e : a + (l + 1) = a + 1 + l := by omega
      rw [h1, List.map_nil, List.nil_append, e, hh, List.take_succ_cons, List.map_cons, List.sum_cons, Nat.add_assoc]

/-- A map holds the values of the cells of the layer, in the order of the list of the cells; the number of values is the number of
those cells. -/
theorem C55_maps (hf : FromStack d0 decl rs ns G) {l : Nat} {lc : List (Cell K)} (hlc : G.ls[l]? = some lc) (temps sources : List K) (time : K)
    (q : Out.Quantity) :
    renderNU G.cells temps sources time q (.tmap l) = some (.map [(List.range lc.length).map fun k => temps.getD (firstCell G l + k) 0]) ∧
    renderNU G.cells temps sources time q (.pmap l) = some (.map [(List.range lc.length).map fun k => sources.getD (firstCell G l + k) 0]) ∧
    (∀ k, k < lc.length → G.cells[firstCell G l + k]? = lc[k]?) ∧ layerCount G.cells l = lc.length := by
  have hz := zipIdx_layer G.ls 0 l (fun k lc hk c hc => by rw [hf.layered k lc hk c hc, Nat.zero_add]) hlc 0
  rw [Nat.zero_add, Nat.zero_add] at hz
  have hv : ∀ x : List K, layerValues G.cells l x = (List.range lc.length).map fun k => x.getD (firstCell G l + k) 0 := by
    intro x
    unfold layerValues Grid.cells
    have : ((G.ls.flatten.zipIdx.filter fun p => decide (p.1.layer = l)).map fun p => tAt x p.2) =
        ((G.ls.flatten.zipIdx.filter fun p => decide (p.1.layer = l)).map (·.2)).map (tAt x) := by rw [List.map_map]; rfl
    rw [this, hz, List.range'_eq_map_range, List.map_map]
    rfl
  refine ⟨?_, ?_, fun k hk => flatten_get G.ls hlc hk, ?_⟩
  · show some (Out.Record.map [layerValues G.cells l temps]) = _
    rw [hv]
  · show some (Out.Record.map [layerValues G.cells l sources]) = _
    rw [hv]
  · have := congrArg List.length hz
    rw [List.length_map, List.length_range', ← List.countP_eq_length_filter] at this
    unfold layerCount
    rw [← this]
    have h2 : G.cells = G.ls.flatten.zipIdx.map (·.1) := by rw [List.zipIdx_map_fst]; rfl
    rw [h2, List.countP_map]
    rfl

/-! ## Examples -/

/-- A floorplan element of the example has the two cells 2 and 3; the two cells of the first one are 0 and 1. -/
theorem nuNoOverlap (p q : ℚ) : NoOverlap (nuFlp p q) := by
  intro x y
  simp only [nuFlp, List.map_cons, List.map_nil, List.countP_cons, List.countP_nil, inRect, decide_eq_true_eq, Nat.zero_add]
  split_ifs with h1 h2 h2 <;> first | omega | skip
  all_goals (exfalso; linarith [h1.1, h2.2.1])

example (p q t : ℚ) : renderNU (nuGrid none p q).cells [1, 2, 3, 6, 9, 9, 9, 9, 9, 9] [] t .average
    (.tflp (dieMarks (nuGrid none p q).d ((nuElems p q).map fixDiscr) 0)) = some (.line t [3 / 2, 9 / 2]) := by
  simp only [renderNU, dieMarks, nuElems, fixDiscr, List.map_cons, List.getElem?_cons_zero, stackMarks, elemMarks, nuFlp, fixEl]
  norm_num [List.filterMap_cons, statNU, avgNU, avgMark, Mark.cells, rectMarks, markEls, List.range', tAt]

example (p q t : ℚ) (Q : Out.Quantity) (hQ : Q ≠ .none) :=
  C55_floorplan_statistics_partial (nuFrom none p q).stack (k := 0) rfl rfl (nuDivided p q _ List.mem_cons_self) (nuNoOverlap p q)
    (by intro e he; simp only [nuFlp, List.mem_cons, List.not_mem_nil, or_false] at he; rcases he with rfl | rfl <;> rfl)
    [1, 2, 3, 6, 9, 9, 9, 9, 9, 9] [] t hQ

/-- The probe at (12, 3) of the die reports the temperature of its cell number 2. -/
example (p q t : ℚ) : renderNU (nuGrid none p q).cells [1, 2, 3, 6, 9, 9, 9, 9, 9, 9] [] t .none (.tcell 0 12 3) = some (.line t [3]) := by
  refine C55_probe_partial _ 0 12 3 _ _ t .none (i := 2) (c := ⟨0, 10, 0, 20, 5, ⟨2, 3, 4, 5⟩, false⟩) ?_ rfl ?_ ?_
  · rw [nuCells]; rfl
  · unfold inCell; norm_num
  · rw [nuCells]
    simp [List.filter_cons, List.countP_cons, inCell]
    norm_num

/-- The map of the upper layer: the cells 8 and 9. -/
example (p q t : ℚ) (temps : List ℚ) : renderNU (nuGrid none p q).cells temps [] t .none (.tmap 2) =
    some (.map [[temps.getD 8 0, temps.getD 9 0]]) := by
  have h := (C55_maps (nuFrom none p q).stack (l := 2) rfl temps [] t .none).1
  rw [h]; rfl

/-- The property is false for elements made of several rectangles. The second rectangle of the first element of the die of
`lGrid` has no cells, and cell 0 of the stack is counted in its place: here a second die with the same floorplan is placed on top, and
its first element, whose only cell is at 400 degrees, is reported as 350 on average and 300 at least. -/
def l2Elems : List (NElem ℚ) :=
  [⟨⟨"low", .die ⟨[exLayer 5], 0, lFlp⟩, 0⟩, 1, 1⟩, ⟨⟨"high", .die ⟨[exLayer 5], 0, lFlp⟩, 1⟩, 1, 1⟩]
def l2Raw : List (Raw ℚ (List (FEl ℚ))) := [⟨"high", .die ⟨[], exLayer 5, [], lFlp⟩⟩, ⟨"low", .die ⟨[], exLayer 5, [], lFlp⟩⟩]
def l2Grid : Grid ℚ :=
  { d := { Flp.okDims with nLayers := 2, heights := [5, 5], nCells := 20 }, nCells := 4
    g := { nLayers := 2, types := [.source, .sourceAmb], layers := [exLayer 5, exLayer 5], channel := none, top := some (.ambient ⟨1, 300⟩),
           bottom := none }
    ls := [[⟨0, 0, 0, 35, 10, exMat, false⟩, ⟨0, 35, 0, 70, 20, exMat, false⟩], [⟨1, 0, 0, 35, 10, exMat, false⟩, ⟨1, 35, 0, 70, 20, exMat, false⟩]]
    flps := [some lFlp, some lFlp]
    ns := l2Elems.map fixDiscr }

theorem l2From : FromFile Flp.okDims l2Raw l2Elems l2Grid := by
  refine ⟨_, l2Grid.g, ⟨?_, ?_, ?_, ?_, rfl, rfl⟩, rfl, ?_⟩
  · show 1 ≤ 2; decide
  · show 1 ≤ 5; decide
  · intro s h; simp [spreaderOf, l2Grid] at h
  · rintro ch h; simp at h
  · have e : buildNU l2Grid.d l2Grid.g.top l2Grid.g.bottom l2Elems =
        some { l2Grid with ls := layersOf l2Grid.d l2Grid.g.top (l2Elems.map fixDiscr) } := rfl
    refine e.trans ?_
    have hls : layersOf l2Grid.d l2Grid.g.top (l2Elems.map fixDiscr) = l2Grid.ls := ?_
    · rw [hls]
    simp only [l2Grid, layersOf, stackLayers, elemLayers, spreaderLayer, l2Elems, fixDiscr, List.map_cons, List.map_nil, lFlp, fixEl]
    norm_num [List.range_succ, dieLayer, subCells, exLayer]

theorem C55_several_rectangles_violated (t : ℚ) : FromFile Flp.okDims l2Raw l2Elems l2Grid ∧
    (∀ i, ElementCell l2Grid l2Elems[1] ⟨0, 0, 35, 10⟩ i ↔ i = 2) ∧ (∀ i, ¬ ElementCell l2Grid l2Elems[1] ⟨0, 10, 5, 10⟩ i) ∧
    ∃ el, (dieMarks l2Grid.d (l2Elems.map fixDiscr) 1)[0]? = some el ∧
      renderNU l2Grid.cells [300, 300, 400, 400] [] t .average (.tflpel el) = some (.line t [350]) ∧
      renderNU l2Grid.cells [300, 300, 400, 400] [] t .minimum (.tflpel el) = some (.line t [300]) := by
  have hcs : l2Grid.cells = [⟨0, 0, 0, 35, 10, exMat, false⟩, ⟨0, 35, 0, 70, 20, exMat, false⟩, ⟨1, 0, 0, 35, 10, exMat, false⟩,
      ⟨1, 35, 0, 70, 20, exMat, false⟩] := rfl
  have hso : sourceLayerOffset (l2Elems[1]).elem = 1 := rfl
  have hel : ∀ r i, ElementCell l2Grid l2Elems[1] r i ↔ (i = 2 ∧ r.x ≤ 0 ∧ 35 ≤ r.x + r.length ∧ r.y ≤ 0 ∧ 10 ≤ r.y + r.width) ∨
      (i = 3 ∧ r.x ≤ 35 ∧ 70 ≤ r.x + r.length ∧ r.y ≤ 0 ∧ 20 ≤ r.y + r.width) := by
    intro r i
    unfold ElementCell
    rw [hso, hcs]
    rcases i with _ | _ | _ | _ | i <;> simp
  refine ⟨l2From, fun i => ?_, fun i => ?_, [(2, 2), (0, 0)], rfl, ?_, ?_⟩
  · rw [hel]; norm_num
  · rw [hel]; norm_num
  · simp [renderNU, statNU, avgNU, avgMark, Mark.cells, tAt]; norm_num
  · simp [renderNU, statNU, minNU, minMark, Mark.cells, tAt]; norm_num

/-- The property is false for probes outside all the cells of their layer (in the second rectangle of an element, for example): cell
0 of the stack is reported, here one of the lower die although the probe is in the upper one. -/
theorem C55_probe_without_cell_violated (t : ℚ) : FromFile Flp.okDims l2Raw l2Elems l2Grid ∧
    (lFlp.flatMap fun e => e.rect :: e.others).countP (inRect 2 15) = 1 ∧
    renderNU l2Grid.cells [300, 300, 400, 400] [] t .none (.tcell (sourceLayerOffset (l2Elems[1]).elem) 2 15) = some (.line t [300]) := by
  refine ⟨l2From, ?_, ?_⟩
  · simp [lFlp, inRect, List.countP_cons]; norm_num
  · have hso : sourceLayerOffset (l2Elems[1]).elem = 1 := rfl
    have hcs : l2Grid.cells = [⟨0, 0, 0, 35, 10, exMat, false⟩, ⟨0, 35, 0, 70, 20, exMat, false⟩, ⟨1, 0, 0, 35, 10, exMat, false⟩,
      ⟨1, 35, 0, 70, 20, exMat, false⟩] := rfl
    rw [hso, hcs]
    simp [renderNU, probeIndex, List.findIdx?_cons, Cell.length, Cell.width, tAt]
    norm_num

/-- C55_element_written: the first element of the upper die has two rectangles; the average is that of its only cell and of cell 0 of the stack. -/
example (t : ℚ) : ∃ el, renderNU l2Grid.cells [300, 300, 400, 400] [] t .average (.tflpel el) = some (.line t [(400 / 1 + 1 * 300) / (1 + 1)]) := by
  obtain ⟨el, v, S, -, h2, -, h4, h5⟩ := C55_element_written l2From.stack (k := 1) (n := l2Elems[1]) rfl (b := ⟨[exLayer 5], 0, lFlp⟩) rfl
    (by intro e he; simp only [lFlp, List.mem_cons, List.not_mem_nil, or_false] at he; rcases he with rfl | rfl <;> norm_num)
    (by
      intro x y
      simp only [lFlp, List.map_cons, List.map_nil, List.countP_cons, List.countP_nil]
      by_cases h : x < 35
      · have : ¬ ((35 : ℚ) ≤ x ∧ x < 35 + 35 ∧ 0 ≤ y ∧ y < 0 + 20) := fun hh => by linarith [hh.1]
        rw [show inRect x y ⟨35, 0, 35, 20⟩ = false from decide_eq_false this]; simp; split_ifs <;> omega
      · have : ¬ ((0 : ℚ) ≤ x ∧ x < 0 + 35 ∧ 0 ≤ y ∧ y < 0 + 10) := fun hh => by linarith [hh.2.1]
        rw [show inRect x y ⟨0, 0, 35, 10⟩ = false from decide_eq_false this]; simp; split_ifs <;> omega)
    (j := 0) rfl [300, 300, 400, 400] [] t (q := .average) (by decide)
  have hS : S = {2} := by
    ext i
    rw [h4, Finset.mem_singleton]
    exact (C55_several_rectangles_violated t).2.1 i
  refine ⟨el, ?_⟩
  rw [h2, h5, hS]
  simp [lFlp]

end Verif.NU
