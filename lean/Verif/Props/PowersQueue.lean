import Verif.Lemmas.PowersQueue
/-!
Properties C01 and C02 (power trace queue).

Specification (independent of the ring buffer): a queue is a list, oldest value first.
-/
namespace Verif.PowersQueue
variable {α : Type} [Zero α]

/-- Specification: put appends, get removes the head; get on the empty list yields 0 and changes nothing.
Returns the values given by the gets, and the values left. -/
def specRun : List α → List (Op α) → List α × List α
  | l,      []              => ([], l)
  | l,      Op.put x :: ops => specRun (l ++ [x]) ops
  | [],     Op.get :: ops   => (0 :: (specRun [] ops).1, (specRun [] ops).2)
  | x :: l, Op.get :: ops   => (x :: (specRun l ops).1, (specRun l ops).2)

/-- The queue never holds 2^31 or more values while `ops` run (2^31 doubles are 16 GiB). -/
def Fits : List α → List (Op α) → Prop
  | _,      []              => True
  | l,      Op.put x :: ops => l.length < 2147483648 ∧ Fits (l ++ [x]) ops
  | [],     Op.get :: ops   => Fits [] ops
  | _ :: l, Op.get :: ops   => Fits l ops

/-- The values put by a sequence of operations. -/
def putsOf : List (Op α) → List α
  | []              => []
  | Op.put x :: ops => x :: putsOf ops
  | Op.get :: ops   => putsOf ops

/-- No get is issued while the queue is empty, given `n` values are present at the beginning. -/
def NoUnderflow : Nat → List (Op α) → Prop
  | _, []              => True
  | n, Op.put _ :: ops => NoUnderflow (n + 1) ops
  | n, Op.get :: ops   => 0 < n ∧ NoUnderflow (n - 1) ops

theorem run_refines (ops : List (Op α)) : ∀ (q : PQ α), Inv q → Fits (toList q) ops →
    ∃ qf, run q ops = some ((specRun (toList q) ops).1, qf) ∧ Inv qf ∧ toList qf = (specRun (toList q) ops).2 := by
  induction ops with
  | nil => intro q h _; exact ⟨q, by simp [run, specRun], h, by simp [specRun]⟩
  | cons op ops ih =>
    intro q h hf
    cases op with
    | put x =>
      simp only [Fits] at hf
      obtain ⟨q', h1, h2, h3⟩ := putDepth_spec 0 q x h (by
        rw [← toList_length q h]; simp only [W]; omega)
      obtain ⟨qf, g1, g2, g3⟩ := ih q' h2 (by rw [h3]; exact hf.2)
      refine ⟨qf, ?_, g2, ?_⟩
      · simp only [run, put, specRun]; rw [h1]; simp only; rw [g1, h3]
      · rw [g3, h3]; simp only [specRun]
    | get =>
      have hg := get_spec q h
      cases hl : toList q with
      | nil =>
        rw [hl] at hg hf
        simp only at hg
        simp only [Fits] at hf
        obtain ⟨qf, g1, g2, g3⟩ := ih q h (by rw [hl]; exact hf)
        refine ⟨qf, ?_, g2, ?_⟩
        · simp only [run, hg, g1, specRun, hl]
        · rw [g3, hl]; simp only [specRun]
      | cons x l =>
        rw [hl] at hg hf
        simp only at hg
        simp only [Fits] at hf
        obtain ⟨q', h1, h2, h3⟩ := hg
        obtain ⟨qf, g1, g2, g3⟩ := ih q' h2 (by rw [h3]; exact hf)
        refine ⟨qf, ?_, g2, ?_⟩
        · simp only [run, h1, g1, specRun, h3]
        · rw [g3, h3]; simp only [specRun]

/-- **C01** Any history of puts and gets on a queue built with capacity `c ≥ 1` runs without undefined behaviour and
gives exactly the answers of a first-in-first-out list. -/
theorem C01_queue_is_fifo (c : Nat) (hc : 1 ≤ c) (hW : c < 4294967296) (ops : List (Op α)) (hf : Fits [] ops) :
    ∃ qf, run (build init c) ops = some ((specRun [] ops).1, qf) ∧ toList qf = (specRun [] ops).2 := by
  obtain ⟨qf, h1, _, h3⟩ := run_refines ops (build init c) (build_inv _ hc hW) (by rw [toList_build]; exact hf)
  rw [toList_build] at h1 h3
  exact ⟨qf, h1, h3⟩

/-- **C01** stated without a specification machine: if no get hits an empty queue, the values obtained followed by the
values still stored are exactly the values put, in order. -/
theorem C01_outputs_are_the_inputs_in_order (c : Nat) (hc : 1 ≤ c) (hW : c < 4294967296) (ops : List (Op α))
    (hf : Fits [] ops) (hu : NoUnderflow 0 ops) :
    ∃ outs qf, run (build init c) ops = some (outs, qf) ∧ outs ++ toList qf = putsOf ops := by
  have aux : ∀ (ops : List (Op α)) (l : List α), NoUnderflow l.length ops →
      (specRun l ops).1 ++ (specRun l ops).2 = l ++ putsOf ops := by
    intro ops
    induction ops with
    | nil => intro l _; simp [specRun, putsOf]
    | cons op ops ih =>
      intro l h
      cases op with
      | put x =>
        simp only [specRun, putsOf]
        rw [ih (l ++ [x]) (by simpa [NoUnderflow] using h)]; simp
      | get =>
        cases l with
        | nil => simp [NoUnderflow] at h
        | cons x l => simp only [specRun, putsOf, List.cons_append]; rw [ih l (by simpa [NoUnderflow] using h)]
  obtain ⟨qf, h1, h2⟩ := C01_queue_is_fifo c hc hW ops hf
  exact ⟨_, qf, h1, by rw [h2]; simpa using aux ops [] hu⟩

/-- Non-vacuity and non-triviality: a history that wraps around and grows a capacity-2 queue. -/
example : Fits ([] : List Int) [.put 1, .put 2, .get, .put 3, .put 4, .get, .get, .put 5] ∧
    NoUnderflow 0 ([.put 1, .put 2, .get, .put 3, .put 4, .get, .get, .put 5] : List (Op Int)) ∧
    (run (build init 2) ([.put 1, .put 2, .get, .put 3, .put 4, .get, .get, .put 5] : List (Op Int))).map
      (fun r => (r.1, toList r.2, r.2.cap)) = some ([1, 2, 3], [4, 5], 4) := by
  refine ⟨by simp [Fits], by simp [NoUnderflow], by decide +kernel⟩

/-- **C02** Get on an empty built queue, or on a never-built queue, returns 0 and leaves the queue as it was. -/
theorem C02_get_empty (q : PQ α) (h : q.mem = none ∨ q.size = 0) : get q = some (0, q) := by
  unfold get
  rcases h with h | h
  · simp [h]
  · cases hm : q.mem <;> simp [isEmpty, h]

/-- **C02** Put on a never-built queue is ignored. -/
theorem C02_put_unbuilt (q : PQ α) (x : α) (h : q.mem = none) : put q x = some q := by
  simp [put, putDepth, h]

/-- **C02** Copying a well-formed queue over any destination (never built, or well formed with any content and any
capacity) never goes wrong and yields the source's remaining values. (The source is not an output of `copy`: it is
unchanged by construction, as in the code, which only reads it.) -/
theorem C02_copy_same_values (dst src : PQ α) (hs : Inv src) (hd : dst.mem = none ∨ Inv dst) :
    ∃ q', copy dst src = some q' ∧ Inv q' ∧ toList q' = toList src := by
  obtain ⟨q', h1, h2, h3, _⟩ := copyWith_spec put dst src hs hd (fun q x hq hlt => by
    unfold put; rw [putDepth_notFull 1 q x hq hlt]; exact store_spec q x hq hlt)
  exact ⟨q', h1, h2, h3⟩

/-- Every state reachable from a build with capacity ≥ 1 satisfies the hypothesis of `C02_copy_same_values`. -/
theorem C02_reachable_inv (c : Nat) (hc : 1 ≤ c) (hW : c < 4294967296) (ops : List (Op α)) (hf : Fits [] ops)
    (outs : List α) (qf : PQ α) (hr : run (build init c) ops = some (outs, qf)) : Inv qf := by
  obtain ⟨q2, h1, h2, _⟩ := run_refines ops (build init c) (build_inv _ hc hW) (by rw [toList_build]; exact hf)
  rw [hr] at h1
  cases h1
  exact h2

example : ∃ q', copy (build (init : PQ Int) 1)
      { cap := 3, size := 2, start := 2, stop := 1, mem := some [7, 0, 5] } = some q' ∧ toList q' = [5, 7] := by
  exact ⟨{ cap := 3, size := 2, start := 0, stop := 2, mem := some [5, 7, 0] }, by decide +kernel, by decide +kernel⟩

/-- **C02 is violated for capacity 0**: the first put into a queue built with capacity 0 (what the server does for an
INSERT_POWERS request that announces 0 values, if a value followed) writes outside the buffer. -/
theorem C02_capacity_zero_violated (x : α) : put (build init 0) x = none := by
  simp [put, putDepth, build, isFull, copyWith, isEmpty, store]

/-- The recursion of `put` through `copy` never needs more than one level on a well-formed queue. -/
theorem put_depth_irrelevant (d : Nat) (q : PQ α) (x : α) (h : Inv q) (hW : q.size < 2147483648) :
    ∃ q1 q2, putDepth (d + 1) q x = some q1 ∧ put q x = some q2 ∧ toList q1 = toList q2 := by
  obtain ⟨q1, a1, _, a3⟩ := putDepth_spec d q x h (by simp only [W]; omega)
  obtain ⟨q2, b1, _, b3⟩ := putDepth_spec 0 q x h (by simp only [W]; omega)
  exact ⟨q1, q2, a1, b1, by rw [a3, b3]⟩

end Verif.PowersQueue
