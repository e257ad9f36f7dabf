import Verif.Model.Client
import Verif.Props.Server

/-! # C47: the client stops at the termination slot -/

set_option linter.unusedSectionVars false
set_option linter.unusedSimpArgs false
set_option linter.unusedVariables false

namespace Verif.Cli
open Verif.Net (Msg extract buildMessage Holds)
open Verif.Srv (Request buildMessage_some)

/-! ### Specification -/

/-- The values of slot `j` of a trace, for `n` floorplan elements. -/
def slot (n : Nat) (values : List Nat) (j : Nat) : List Nat := (values.drop (j * n)).take n

/-- The trace contains all the values of slot `j`. -/
def Complete (n : Nat) (values : List Nat) (j : Nat) : Prop := (j + 1) * n ≤ values.length

/-- The 32 bits of `-1.0f`: sign 1, exponent 127 (the bias), fraction 0. -/
def minusOne : Nat := 1 * 2 ^ 31 + 127 * 2 ^ 23 + 0

/-- Slot `j` is there and all its values are -1. -/
def AllMinusOne (n : Nat) (values : List Nat) (j : Nat) : Prop := Complete n values j ∧ ∀ w ∈ slot n values j, w = minusOne

/-- The requests that simulate a slot with the given powers: the powers, the simulation, the reports of averages, maxima and minima, the cells, the maps,
the elements. -/
def slotRequests (powers : List Nat) : List Request :=
  [.insert powers, .slot, .output 2 2 1, .output 2 2 2, .output 2 2 3, .output 2 1 0, .output 2 4 0, .output 2 3 1]

/-- The messages are those requests. -/
def Are (msgs : List Msg) (reqs : List Request) : Prop := List.Forall₂ (fun m (r : Request) => Holds m r.type r.words) msgs reqs

/-- The requests for the first `m` slots. -/
def requests (n : Nat) (values : List Nat) (m : Nat) : List Request := (List.range m).flatMap fun j => slotRequests (slot n values j)

/-! ### Proofs -/

theorem sentinel_eq : sentinel = minusOne := by decide

theorem readSlot_file (follow : Bool) (bad : Bool) : ∀ (n : Nat) (values : List Nat) (term : Bool) (acc : List Nat),
    readSlot follow n (.file values bad) term acc =
      if n ≤ values.length then .slot (acc ++ values.take n) (term && (values.take n).all fun w => decide (w = sentinel)) (.file (values.drop n) bad)
      else if bad = false ∧ follow = true then .waits else .failed := by
  intro n
  induction n with
  | zero => intro values term acc; simp [readSlot]
  | succ n ih =>
    intro values term acc
    cases values with
    | nil =>
      simp only [readSlot, readValue, List.length_nil, Nat.not_succ_le_zero, if_false]
      split
      · split at * <;> simp_all
      · split at * <;> simp_all
      · split at * <;> simp_all
    | cons w ws =>
      simp only [readSlot, readValue, ih, List.length_cons, Nat.succ_le_succ_iff, List.take_succ_cons, List.drop_succ_cons, List.append_assoc,
        List.cons_append, List.nil_append, List.all_cons]
      split
      · congr 1
        cases term <;> by_cases hw : w = sentinel <;> simp [hw]
      · rfl

theorem slot_succ (n : Nat) (values : List Nat) (j : Nat) : slot n values (j + 1) = slot n (values.drop n) j := by
  unfold slot
  rw [List.drop_drop, show (j + 1) * n = n + j * n by ring]

theorem slot_zero (n : Nat) (values : List Nat) : slot n values 0 = values.take n := by simp [slot]

theorem complete_zero (n : Nat) (values : List Nat) : Complete n values 0 ↔ n ≤ values.length := by simp [Complete]

theorem complete_succ {n : Nat} {values : List Nat} (h : n ≤ values.length) (j : Nat) :
    Complete n values (j + 1) ↔ Complete n (values.drop n) j := by
  unfold Complete
  rw [List.length_drop, show (j + 1 + 1) * n = (j + 1) * n + n by ring]
  omega

theorem allMinusOne_succ {n : Nat} {values : List Nat} (h : n ≤ values.length) (j : Nat) :
    AllMinusOne n values (j + 1) ↔ AllMinusOne n (values.drop n) j := by
  unfold AllMinusOne
  rw [complete_succ h, slot_succ]

theorem requests_succ (n : Nat) (values : List Nat) (m : Nat) :
    requests n values (m + 1) = slotRequests (values.take n) ++ requests n (values.drop n) m := by
  unfold requests
  rw [List.range_succ_eq_map, List.flatMap_cons, List.flatMap_map, slot_zero]
  congr 1
  apply List.flatMap_congr
  intro j _
  rw [slot_succ]

theorem holds_request {m : Msg} (r : Request) (h : buildMessage r.type r.words = some m) : Holds m r.type r.words := buildMessage_some h

theorem reports_are {σ : Type} {talk : Talk σ} {cw : List Nat → Bool} {qs : List Nat} {s s' : σ} {ms : List Msg} {ok : Bool}
    (h : Reports talk cw qs s ms ok s') : ∃ l, l <+: qs.map (Request.output 2 2 ·) ∧ Are ms l ∧ (ok = true → l = qs.map (Request.output 2 2 ·)) := by
  induction h with
  | done => exact ⟨[], by simp, .nil, by simp⟩
  | @fails q qs s m b r s' h1 h2 h3 =>
    refine ⟨[.output 2 2 q], ⟨qs.map (Request.output 2 2 ·), rfl⟩, .cons (holds_request (.output 2 2 q) h1) .nil, by simp⟩
  | @next q qs s m b r s' ms ok s'' h1 h2 h3 h4 ih =>
    obtain ⟨l, a, b, c⟩ := ih
    refine ⟨.output 2 2 q :: l, ?_, .cons (holds_request (.output 2 2 q) h1) b, fun ho => by simp [c ho]⟩
    obtain ⟨t, ht⟩ := a
    exact ⟨t, by simp [ht]⟩

/-- What the loop sends and when it stops. `m` is the number of slots simulated completely. -/
theorem loop_spec {σ : Type} {o : Opts} (hu : o.untilMinusOne = true) {talk : Talk σ} {cw : List Nat → Bool} {n k : Nat} {src : Source}
    {s s' : σ} {msgs : List Msg} {f : Outcome} (h : Loop o talk cw n k src s msgs f s') :
    ∀ values bad, src = .file values bad → ∃ m, (∀ j, j < m → Complete n values j ∧ ¬ AllMinusOne n values j) ∧ (o.nslots ≠ 0 → m ≤ k) ∧
      ((f = .success ∧ (o.nslots ≠ 0 ∧ m = k ∨ AllMinusOne n values m) ∧ Are msgs (requests n values m ++ [.exit])) ∨
       (f ≠ .success ∧ ∃ l, l <+: slotRequests (slot n values m) ∧ l ≠ slotRequests (slot n values m) ∧
          (l ≠ [] → Complete n values m ∧ ¬ AllMinusOne n values m) ∧ Are msgs (requests n values m ++ l))) := by
  have key : ∀ (values : List Nat) (bad : Bool) (vs : List Nat) (t : Bool) (src' : Source),
      readSlot o.follow n (.file values bad) o.untilMinusOne [] = .slot vs t src' →
      n ≤ values.length ∧ vs = values.take n ∧ vs.length = n ∧ src' = .file (values.drop n) bad ∧ (t = true ↔ AllMinusOne n values 0) := by
    intro values bad vs t src' h
    rw [readSlot_file] at h
    split at h
    · rename_i hle
      simp only [SlotRead.slot.injEq, List.nil_append, hu, Bool.true_and] at h
      obtain ⟨h1, h2, h3⟩ := h
      refine ⟨hle, h1.symm, by rw [← h1]; simp [hle], h3.symm, ?_⟩
      rw [← h2, List.all_eq_true]
      simp only [decide_eq_true_eq]
      unfold AllMinusOne
      rw [← sentinel_eq, slot_zero, complete_zero]
      exact ⟨fun h => ⟨hle, h⟩, fun h => h.2⟩
    · split at h <;> cases h
  induction h with
  | @finished k src s m h1 h2 h3 =>
    intro values bad he
    refine ⟨0, by simp, by simp, Or.inl ⟨rfl, Or.inl ⟨?_, h2.symm⟩, ?_⟩⟩
    · intro h0; exact h1 ⟨h0, hu⟩
    · exact .cons (holds_request .exit h3) .nil
  | readFails h1 h2 =>
    intro values bad he
    exact ⟨0, by simp, by simp, Or.inr ⟨by simp, [], by simp, by simp [slotRequests], by simp, .nil⟩⟩
  | readWaits h1 h2 =>
    intro values bad he
    exact ⟨0, by simp, by simp, Or.inr ⟨by simp, [], by simp, by simp [slotRequests], by simp, .nil⟩⟩
  | terminated h1 h2 h3 =>
    intro values bad he
    subst he
    obtain ⟨-, -, -, -, h4⟩ := key _ _ _ _ _ h2
    exact ⟨0, by simp, by simp, Or.inl ⟨rfl, Or.inr (h4.mp rfl), .cons (holds_request .exit h3) .nil⟩⟩
  | @insertFails k src s vs src' m1 b1 r1 s1 w1 h1 h2 h3 h4 h5 h6 =>
    intro values bad he
    subst he
    obtain ⟨a1, a2, a3, -, a5⟩ := key _ _ _ _ _ h2
    refine ⟨0, by simp, by simp, Or.inr ⟨by simp, [.insert vs], ?_, by simp [slotRequests], ?_, ?_⟩⟩
    · rw [slot_zero, ← a2]; exact ⟨_, rfl⟩
    · intro _; exact ⟨(complete_zero _ _).mpr a1, fun hh => by have := a5.mpr hh; cases this⟩
    · refine .cons (holds_request (.insert vs) ?_) .nil
      simpa [Request.type, Request.words, a3] using h3
  | @slotFails k src s vs src' m1 b1 r1 s1 m2 b2 r2 s2 w2 h1 h2 h3 h4 h5 h6 h7 h8 h9 =>
    intro values bad he
    subst he
    obtain ⟨a1, a2, a3, -, a5⟩ := key _ _ _ _ _ h2
    refine ⟨0, by simp, by simp, Or.inr ⟨by simp, [.insert vs, .slot], ?_, by simp [slotRequests], ?_, ?_⟩⟩
    · rw [slot_zero, ← a2]; exact ⟨_, rfl⟩
    · intro _; exact ⟨(complete_zero _ _).mpr a1, fun hh => by have := a5.mpr hh; cases this⟩
    · refine .cons (holds_request (.insert vs) ?_) (.cons (holds_request .slot h6) .nil)
      simpa [Request.type, Request.words, a3] using h3
  | @reportFails k src s vs src' m1 b1 r1 s1 m2 b2 r2 s2 ms s3 h1 h2 h3 h4 h5 h6 h7 h8 h9 =>
    intro values bad he
    subst he
    obtain ⟨a1, a2, a3, -, a5⟩ := key _ _ _ _ _ h2
    obtain ⟨l, ⟨t, b1⟩, b2, -⟩ := reports_are h9
    refine ⟨0, by simp, by simp, Or.inr ⟨by simp, .insert vs :: .slot :: l, ?_, ?_, ?_, ?_⟩⟩
    · rw [slot_zero, ← a2]
      refine ⟨t ++ [.output 2 1 0, .output 2 4 0, .output 2 3 1], ?_⟩
      simp only [slotRequests, List.cons_append, ← List.append_assoc, b1]
      rfl
    · intro hh
      have h10 := congrArg List.length b1
      have h11 := congrArg List.length hh
      simp [slotRequests] at h10 h11
      omega
    · intro _; exact ⟨(complete_zero _ _).mpr a1, fun hh => by have := a5.mpr hh; cases this⟩
    · refine .cons (holds_request (.insert vs) ?_) (.cons (holds_request .slot h6) b2)
      simpa [Request.type, Request.words, a3] using h3
  | @next k src s vs src' m1 b1 r1 s1 m2 b2 r2 s2 ms s3 m4 b4 r4 s4 m5 b5 r5 s5 m6 b6 r6 s6 msgs f s' h1 h2 h3 h4 h5 h6 h7 h8 h9 h10 h11 h12 h13 h14 h15 h16 ih =>
    intro values bad he
    subst he
    obtain ⟨a1, a2, a3, a4, a5⟩ := key _ _ _ _ _ h2
    obtain ⟨l, -, b2, b3⟩ := reports_are h9
    have b3 := b3 rfl
    subst b3
    obtain ⟨m, c1, c2, c3⟩ := ih _ _ a4
    have hk : o.nslots ≠ 0 → m + 1 ≤ k := by
      intro hn
      have := c2 hn
      rw [if_neg (fun hh => hn hh.1)] at this
      rcases h1 with h1 | h1
      · exact absurd h1.1 hn
      · omega
    have hone : Are (m1 :: m2 :: (ms ++ [m4, m5, m6])) (slotRequests (values.take n)) := by
      rw [← a2]
      refine .cons (holds_request (.insert vs) ?_) (.cons (holds_request .slot h6) ?_)
      · simpa [Request.type, Request.words, a3] using h3
      · exact List.rel_append b2 (.cons (holds_request (.output 2 1 0) h10) (.cons (holds_request (.output 2 4 0) h12)
          (.cons (holds_request (.output 2 3 1) h14) .nil)))
    have hall : ∀ {l : List Request}, Are msgs (requests n (values.drop n) m ++ l) →
        Are (m1 :: m2 :: (ms ++ m4 :: m5 :: m6 :: msgs)) (requests n values (m + 1) ++ l) := by
      intro l hl
      rw [requests_succ, List.append_assoc]
      have := List.rel_append hone hl
      unfold Are
      simpa using this
    refine ⟨m + 1, ?_, hk, ?_⟩
    · intro j hj
      cases j with
      | zero => exact ⟨(complete_zero _ _).mpr a1, fun hh => by have := a5.mpr hh; cases this⟩
      | succ j => rw [complete_succ a1, allMinusOne_succ a1]; exact c1 j (by omega)
    · rcases c3 with ⟨d1, d2, d3⟩ | ⟨d1, l, d2, d3, d4, d5⟩
      · refine Or.inl ⟨d1, ?_, hall d3⟩
        rcases d2 with ⟨d2, d2'⟩ | d2
        · left
          refine ⟨d2, ?_⟩
          rw [if_neg (fun hh => d2 hh.1)] at d2'
          have := hk d2
          omega
        · right; exact (allMinusOne_succ a1 m).mpr d2
      · refine Or.inr ⟨d1, l, by rw [slot_succ]; exact d2, by rw [slot_succ]; exact d3, ?_, hall d5⟩
        rw [complete_succ a1, allMinusOne_succ a1]; exact d4

/-- **C47** Whatever the server answers: with `--until-minus-one`, the client sends the request of the number of floorplan elements, then the requests of the
first `m` slots of the trace, none of which is a termination slot; it ends with success exactly when slot `m` is the first one with all values -1, or `m`
is the requested number of slots, and then it sends the exit request and nothing else. If it fails or waits for more values (follow mode), it has
sent only a part of the requests of slot `m`, and nothing of it if slot `m` is a termination slot. `n` is the number of elements the server
answers. -/
theorem C47_stops_at_termination_slot {σ : Type} {o : Opts} (hu : o.untilMinusOne = true) {talk : Talk σ} {cw : List Nat → Bool} {values : List Nat}
    {bad : Bool} {s s' : σ} {msgs : List Msg} {f : Outcome} (h : Client o talk cw (.file values bad) s msgs f s') :
    ∃ m0 b r s1 n m, talk s m0 b r s1 ∧ extract r 0 = .ok n ∧
      (∀ j, j < m → Complete n values j ∧ ¬ AllMinusOne n values j) ∧ (o.nslots ≠ 0 → m ≤ o.nslots) ∧
      ((f = .success ∧ (o.nslots ≠ 0 ∧ m = o.nslots ∨ AllMinusOne n values m) ∧ Are msgs (.total :: requests n values m ++ [.exit])) ∨
       (f ≠ .success ∧ ∃ l, l <+: slotRequests (slot n values m) ∧ l ≠ slotRequests (slot n values m) ∧
          (l ≠ [] → Complete n values m ∧ ¬ AllMinusOne n values m) ∧ Are msgs (.total :: requests n values m ++ l))) := by
  obtain ⟨m0, b, r, s1, n, ms, h1, h2, h3, h4, rfl⟩ := h
  obtain ⟨m, c1, c2, c3⟩ := loop_spec hu h4 values bad rfl
  refine ⟨m0, b, r, s1, n, m, h2, h3, c1, c2, ?_⟩
  rcases c3 with ⟨d1, d2, d3⟩ | ⟨d1, l, d2, d3, d4, d5⟩
  · exact Or.inl ⟨d1, d2, .cons (holds_request .total h1) d3⟩
  · exact Or.inr ⟨d1, l, d2, d3, d4, .cons (holds_request .total h1) d5⟩

end Verif.Cli
