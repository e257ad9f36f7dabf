import Verif.Model.PowersQueue
/-! Helper lemmas for the power queue. -/
namespace Verif.PowersQueue
variable {α : Type} [Zero α]

/-- The values in the queue, oldest first. -/
def toList (q : PQ α) : List α :=
  match q.mem with
  | none   => []
  | some m => (List.range q.size).map fun i => m.getD ((q.start + i) % q.cap) 0

/-- Well-formed built queue. -/
structure Inv (q : PQ α) : Prop where
  ex   : ∃ m, q.mem = some m ∧ m.length = q.cap
  pos  : 0 < q.cap
  capW : q.cap < W
  le   : q.size ≤ q.cap
  st   : q.start < q.cap
  en   : q.stop = (q.start + q.size) % q.cap

theorem build_inv (q : PQ α) {c : Nat} (hc : 0 < c) (hW : c < W) : Inv (build q c) := by
  constructor <;> simp [build] <;> omega

theorem toList_build (q : PQ α) (c : Nat) : toList (build q c) = [] := by
  simp [toList, build]

theorem toList_length (q : PQ α) (h : Inv q) : (toList q).length = q.size := by
  obtain ⟨m, hm, _⟩ := h.ex
  simp [toList, hm]

theorem mod_mod_succ {i c : Nat} (hi : i < c) (hc : c < W) : ((i + 1) % W) % c = (i + 1) % c := by
  rw [Nat.mod_eq_of_lt (a := i+1) (by omega)]

theorem store_spec (q : PQ α) (x : α) (h : Inv q) (hlt : q.size < q.cap) :
    ∃ q', store q x = some q' ∧ Inv q' ∧ toList q' = toList q ++ [x] ∧ q'.cap = q.cap ∧ q'.size = q.size + 1 := by
  obtain ⟨m, hm, hl⟩ := h.ex
  have hpos := h.pos
  have hstop : q.stop < q.cap := by rw [h.en]; exact Nat.mod_lt _ hpos
  have hW := h.capW
  have hs1 : (q.size + 1) % W = q.size + 1 := Nat.mod_eq_of_lt (by omega)
  refine ⟨{ cap := q.cap, size := (q.size + 1) % W, start := q.start, stop := ((q.stop + 1) % W) % q.cap,
            mem := some (m.set q.stop x) },
    by simp [store, hm, hl, hstop, Nat.ne_of_gt hpos], ?_, ?_, rfl, ?_⟩
  · constructor
    · exact ⟨_, rfl, by simpa using hl⟩
    · exact hpos
    · exact hW
    · simp only; omega
    · exact h.st
    · simp only [hs1]
      rw [mod_mod_succ hstop hW, h.en, Nat.mod_add_mod, Nat.add_assoc]
  · simp only [toList, hm, hs1]
    rw [List.range_succ, List.map_append, List.map_singleton]
    congr 1
    · apply List.map_congr_left
      intro i hi
      rw [List.mem_range] at hi
      have hne : q.stop ≠ (q.start + i) % q.cap := by
        rw [h.en]
        intro he
        have h1 : (q.start + q.size) % q.cap = (q.start + i) % q.cap := he
        have hst := h.st
        -- both summands within [start, start+cap)
        rcases Nat.lt_or_ge (q.start + q.size) q.cap with ha | ha <;>
        rcases Nat.lt_or_ge (q.start + i) q.cap with hb | hb
        · rw [Nat.mod_eq_of_lt ha, Nat.mod_eq_of_lt hb] at h1; omega
        · omega
        · rw [Nat.mod_eq_sub_mod ha, Nat.mod_eq_of_lt (by omega), Nat.mod_eq_of_lt hb] at h1; omega
        · rw [Nat.mod_eq_sub_mod ha, Nat.mod_eq_of_lt (by omega), Nat.mod_eq_sub_mod hb,
            Nat.mod_eq_of_lt (by omega)] at h1; omega
      simp [List.getD_eq_getElem?_getD, List.getElem?_set_ne hne]
    · rw [← h.en]
      simp [List.getD_eq_getElem?_getD, hl, hstop]
  · simp only [hs1]

theorem copyLoop_spec (put : PQ α → α → Option (PQ α)) (src : PQ α) (hs : Inv src)
    (hput : ∀ q x, Inv q → q.size < q.cap →
      ∃ q', put q x = some q' ∧ Inv q' ∧ toList q' = toList q ++ [x] ∧ q'.cap = q.cap ∧ q'.size = q.size + 1)
    (k : Nat) : ∀ (j : Nat) (dst : PQ α), Inv dst → dst.size + k ≤ dst.cap → j + k = src.size →
      ∃ q', copyLoop put src k ((src.start + j) % src.cap) dst = some q' ∧ Inv q' ∧
        toList q' = toList dst ++ (toList src).drop j ∧ q'.cap = dst.cap := by
  obtain ⟨m, hm, hl⟩ := hs.ex
  induction k with
  | zero =>
    intro j dst hd _ hj
    refine ⟨dst, rfl, hd, ?_, rfl⟩
    have : (toList src).length ≤ j := by rw [toList_length src hs]; omega
    simp [List.drop_eq_nil_of_le this]
  | succ k ih =>
    intro j dst hd hsz hj
    have hidx : (src.start + j) % src.cap < m.length := by rw [hl]; exact Nat.mod_lt _ hs.pos
    obtain ⟨d1, hp1, hi1, hl1, hc1, hs1⟩ := hput dst m[(src.start + j) % src.cap] hd (by omega)
    obtain ⟨d2, hp2, hi2, hl2, hc2⟩ := ih (j+1) d1 hi1 (by omega) (by omega)
    refine ⟨d2, ?_, hi2, ?_, by omega⟩
    · rw [copyLoop]
      simp only [hm, List.getElem?_eq_getElem hidx, hp1, Nat.ne_of_gt hs.pos, if_false]
      rw [mod_mod_succ (Nat.mod_lt _ hs.pos) hs.capW, Nat.mod_add_mod, Nat.add_assoc]
      exact hp2
    · rw [hl2, hl1, List.append_assoc]
      congr 1
      have hjl : j < (toList src).length := by rw [toList_length src hs]; omega
      rw [List.drop_eq_getElem_cons hjl]
      simp only [toList, hm, List.getElem_map, List.getElem_range, List.singleton_append, List.cons.injEq, and_true]
      simp [List.getD_eq_getElem?_getD, List.getElem?_eq_getElem hidx]

/-- Copying with any put that behaves on non-full queues. -/
theorem copyWith_spec (put : PQ α → α → Option (PQ α)) (dst src : PQ α) (hs : Inv src)
    (hd : dst.mem = none ∨ Inv dst)
    (hput : ∀ q x, Inv q → q.size < q.cap →
      ∃ q', put q x = some q' ∧ Inv q' ∧ toList q' = toList q ++ [x] ∧ q'.cap = q.cap ∧ q'.size = q.size + 1) :
    ∃ q', copyWith put dst src = some q' ∧ Inv q' ∧ toList q' = toList src ∧ src.cap ≤ q'.cap ∧
      (dst.mem ≠ none → dst.cap ≤ q'.cap) := by
  have key : ∀ d : PQ α, Inv d → d.size = 0 → d.start = 0 → src.cap ≤ d.cap →
      ∃ q', (if isEmpty src then some d else copyLoop put src src.size src.start d) = some q' ∧ Inv q' ∧
        toList q' = toList src ∧ q'.cap = d.cap := by
    intro d hdi hd0 _ hcap
    have hnil : toList d = [] := List.eq_nil_of_length_eq_zero (by rw [toList_length d hdi]; exact hd0)
    by_cases he : src.size = 0
    · refine ⟨d, by simp [isEmpty, he], hdi, ?_, rfl⟩
      have : toList src = [] := List.eq_nil_of_length_eq_zero (by rw [toList_length src hs]; exact he)
      rw [hnil, this]
    · obtain ⟨q', h1, h2, h3, h4⟩ := copyLoop_spec put src hs hput src.size 0 d hdi (by have := hs.le; omega) (by omega)
      rw [Nat.add_zero, Nat.mod_eq_of_lt hs.st] at h1
      exact ⟨q', by simp [isEmpty, he, h1], h2, by simpa [hnil] using h3, h4⟩
  unfold copyWith
  by_cases hc : dst.cap < src.cap ∨ dst.mem = none
  · simp only [hc, if_true]
    obtain ⟨q', h1, h2, h3, h4⟩ := key (build init src.cap) (build_inv _ hs.pos hs.capW) rfl rfl (Nat.le_refl _)
    refine ⟨q', h1, h2, h3, ?_, ?_⟩
    · rw [h4]; exact Nat.le_refl _
    · intro hn
      rw [h4]; rcases hc with h | h
      · simp [build]; omega
      · exact absurd h hn
  · simp only [hc, if_false]
    rw [not_or] at hc
    have hdi : Inv dst := by
      rcases hd with h | h
      · exact absurd h hc.2
      · exact h
    have hi' : Inv { dst with start := 0, stop := 0, size := 0 } := by
      obtain ⟨m, hm, hl⟩ := hdi.ex
      constructor
      · exact ⟨m, hm, hl⟩
      · exact hdi.pos
      · exact hdi.capW
      · simp
      · exact hdi.pos
      · simp
    obtain ⟨q', h1, h2, h3, h4⟩ := key _ hi' rfl rfl (by simp only; omega)
    refine ⟨q', h1, h2, h3, ?_, ?_⟩
    · rw [h4]; simp only; omega
    · intro _; rw [h4]; exact Nat.le_refl _

theorem putDepth_notFull (d : Nat) (q : PQ α) (x : α) (h : Inv q) (hlt : q.size < q.cap) :
    putDepth d q x = store q x := by
  obtain ⟨m, hm, _⟩ := h.ex
  unfold putDepth
  simp [hm, isFull, Nat.ne_of_lt hlt]

/-- `put` on any well-formed queue whose size leaves room for doubling in 32 bits; also independent of the depth. -/
theorem putDepth_spec (d : Nat) (q : PQ α) (x : α) (h : Inv q) (hW : q.size < W / 2) :
    ∃ q', putDepth (d+1) q x = some q' ∧ Inv q' ∧ toList q' = toList q ++ [x] := by
  by_cases hf : q.size = q.cap
  · obtain ⟨m, hm, hl⟩ := h.ex
    have hpos := h.pos
    have hcap2 : q.cap * 2 % W = q.cap * 2 := Nat.mod_eq_of_lt (by simp only [W] at *; omega)
    have hbi : Inv (build (init : PQ α) (q.cap * 2)) :=
      build_inv _ (by omega) (by simp only [W] at *; omega)
    obtain ⟨pq, h1, h2, h3, h4, h5⟩ := copyWith_spec (putDepth d) (build init (q.cap * 2)) q h (Or.inr hbi)
      (fun q x hq hlt => by
        rw [putDepth_notFull d q x hq hlt]
        exact store_spec q x hq hlt)
    have h5' := h5 (by simp [build])
    simp only [build] at h5'
    have hsz : pq.size = q.size := by rw [← toList_length pq h2, h3, toList_length q h]
    obtain ⟨q', g1, g2, g3, _⟩ := store_spec pq x h2 (by omega)
    refine ⟨q', ?_, g2, by rw [g3, h3]⟩
    unfold putDepth
    simp only [hm, isFull, hf, beq_self_eq_true, if_true, hcap2]
    rw [h1]; exact g1
  · have hlt : q.size < q.cap := by have := h.le; omega
    rw [putDepth_notFull _ q x h hlt]
    obtain ⟨q', g1, g2, g3, _⟩ := store_spec q x h hlt
    exact ⟨q', g1, g2, g3⟩

theorem get_spec (q : PQ α) (h : Inv q) :
    match toList q with
    | []      => get q = some (0, q)
    | x :: xs => ∃ q', get q = some (x, q') ∧ Inv q' ∧ toList q' = xs := by
  obtain ⟨m, hm, hl⟩ := h.ex
  have hpos := h.pos
  by_cases hs : q.size = 0
  · have : toList q = [] := List.eq_nil_of_length_eq_zero (by rw [toList_length q h]; exact hs)
    rw [this]; simp [get, hm, isEmpty, hs]
  · obtain ⟨n, hn⟩ : ∃ n, q.size = n + 1 := ⟨q.size - 1, by omega⟩
    have hst : q.start < m.length := by rw [hl]; exact h.st
    have hlist : toList q = m[q.start] ::
        (List.range n).map (fun i => m.getD ((q.start + (i + 1)) % q.cap) 0) := by
      simp only [toList, hm, hn, List.range_succ_eq_map, List.map_cons, List.map_map]
      congr 1
      simp [List.getD_eq_getElem?_getD, Nat.mod_eq_of_lt h.st, List.getElem?_eq_getElem hst]
    rw [hlist]
    refine ⟨{ cap := q.cap, size := q.size - 1, start := ((q.start + 1) % W) % q.cap, stop := q.stop, mem := some m },
      by simp [get, hm, isEmpty, hs, List.getElem?_eq_getElem hst, Nat.ne_of_gt hpos], ?_, ?_⟩
    · constructor
      · exact ⟨m, rfl, hl⟩
      · exact hpos
      · exact h.capW
      · have := h.le; simp only; omega
      · exact Nat.mod_lt _ hpos
      · simp only [hn]
        rw [h.en, mod_mod_succ h.st h.capW, Nat.mod_add_mod, hn]
        congr 1; omega
    · simp only [toList, hn, Nat.add_sub_cancel]
      apply List.map_congr_left
      intro i _
      rw [mod_mod_succ h.st h.capW, Nat.mod_add_mod]
      congr 2; omega

end Verif.PowersQueue
