import Verif.Props.Client

/-! # C47: a client and a server that works -/

set_option linter.unusedSectionVars false
set_option linter.unusedSimpArgs false
set_option linter.unusedVariables false

namespace Verif.Cli
open Verif.Net (Msg extract buildMessage Holds clientDecode IsWord)
open Verif.Srv (Request buildMessage_some)

/-! ### Specification -/

/-- `m` is the number of slots to simulate: those before it are in the trace and are no termination slots; slot `m` is a termination slot, or is
not in the trace, or `m` is the number of slots asked for. -/
structure Last (limit : Option Nat) (n : Nat) (values : List Nat) (m : Nat) : Prop where
  before : ∀ j, j < m → Complete n values j ∧ ¬ AllMinusOne n values j
  within : ∀ k, limit = some k → m ≤ k
  stop : AllMinusOne n values m ∨ limit = some m ∨ ¬ Complete n values m

/-- The client ends well: at a termination slot or at the number of slots asked for. -/
def EndsWell (limit : Option Nat) (n : Nat) (values : List Nat) (m : Nat) : Prop := AllMinusOne n values m ∨ limit = some m

/-- The number of slots asked for; 0 means that there is no limit. -/
def limitOf (o : Opts) : Option Nat := if o.nslots = 0 then none else some o.nslots

/-- How the client ends: with success, or by waiting for the end of the trace if it follows it, or with a failure. -/
noncomputable def ending (o : Opts) (bad : Bool) (n : Nat) (values : List Nat) (m : Nat) : Outcome :=
  open Classical in if EndsWell (limitOf o) n values m then .success else if bad = false ∧ o.follow = true then .waiting else .failure

/-- The first `m` slots of a trace. -/
def slots (n : Nat) (values : List Nat) (m : Nat) : List (List Nat) := (List.range m).map (slot n values)

/-- A server that accepts the powers, simulates the slots and sends reports that the client can write. `I` holds of its states between two
slots, `A` between the powers and the simulation; both depend on the slots the client has sent so far, which satisfy `P`. -/
structure Cooperates {σ : Type} (talk : Talk σ) (cw : List Nat → Bool) (n : Nat) (P : List (List Nat) → Prop) (I A : List (List Nat) → σ → Prop) : Prop where
  insert : ∀ {done vs s m b r s'}, I done s → P (done ++ [vs]) → vs.length = n → Holds m 5 (n :: vs) → talk s m b r s' →
    extract r 0 = .ok 0 ∧ A (done ++ [vs]) s'
  slot : ∀ {done s m b r s'}, A done s → P done → Holds m 6 [] → talk s m b r s' → extract r 0 = .ok 4 ∧ I done s'
  report : ∀ {done s m q b r s'}, I done s → 1 ≤ q → q ≤ 3 → Holds m 2 [2, 2, q] → talk s m b r s' →
    b = true ∧ (∃ t reports, clientDecode r = .ok (t, reports) ∧ reports.all (fun x => cw x.name) = true) ∧ I done s'
  other : ∀ {done s m t q b r s'}, I done s → (t, q) ∈ [(1, 0), (4, 0), (3, 1)] → Holds m 2 [2, t, q] → talk s m b r s' → I done s'

/-- The server always answers. -/
structure Alive {σ : Type} (talk : Talk σ) (n : Nat) (P : List (List Nat) → Prop) (I A : List (List Nat) → σ → Prop) : Prop where
  insert : ∀ {done vs s m}, I done s → P (done ++ [vs]) → vs.length = n → Holds m 5 (n :: vs) → ∃ b r s', talk s m b r s'
  slot : ∀ {done s m}, A done s → P done → Holds m 6 [] → ∃ b r s', talk s m b r s'
  output : ∀ {done s m t q}, I done s → t ≤ 4 → q ≤ 3 → Holds m 2 [2, t, q] → ∃ b r s', talk s m b r s'

/-! ### Proofs -/

theorem last_unique {limit : Option Nat} {n : Nat} {values : List Nat} {m m' : Nat} (h : Last limit n values m) (h' : Last limit n values m') : m = m' := by
  have key : ∀ {a b : Nat}, Last limit n values a → Last limit n values b → ¬ a < b := by
    intro a b ha hb hlt
    obtain ⟨h1, h2⟩ := hb.before a hlt
    rcases ha.stop with h3 | h3 | h3
    · exact h2 h3
    · have := hb.within _ h3; omega
    · exact h3 h1
  have h1 := key h h'
  have h2 := key h' h
  omega

theorem reports_coop {σ : Type} {talk : Talk σ} {cw : List Nat → Bool} {n : Nat} {P : List (List Nat) → Prop} {I A : List (List Nat) → σ → Prop}
    (hc : Cooperates talk cw n P I A) {done : List (List Nat)} {qs : List Nat} (hq : ∀ q ∈ qs, 1 ≤ q ∧ q ≤ 3) {s s' : σ} {ms : List Msg} {ok : Bool}
    (h : Reports talk cw qs s ms ok s') (hI : I done s) : ok = true ∧ I done s' := by
  induction h with
  | done => exact ⟨rfl, hI⟩
  | @fails q qs s m b r s' h1 h2 h3 =>
    obtain ⟨rfl, ⟨t, reports, h4, h5⟩, h6⟩ := hc.report hI (hq q (by simp)).1 (hq q (by simp)).2 (buildMessage_some h1) h2
    simp only [tflpOk, h4, h5] at h3
    cases h3
  | @next q qs s m b r s' ms ok s'' h1 h2 h3 h4 ih =>
    obtain ⟨-, -, h6⟩ := hc.report hI (hq q (by simp)).1 (hq q (by simp)).2 (buildMessage_some h1) h2
    exact ih (fun q hq' => hq q (by simp [hq'])) h6

theorem slots_succ (n : Nat) (values : List Nat) (m : Nat) : slots n values (m + 1) = values.take n :: slots n (values.drop n) m := by
  unfold slots
  rw [List.range_succ_eq_map, List.map_cons, List.map_map, slot_zero]
  congr 1
  apply List.map_congr_left
  intro j _
  exact slot_succ n values j

theorem last_tail {limit : Option Nat} {n : Nat} {values : List Nat} {m : Nat} (hle : n ≤ values.length) (h : Last limit n values (m + 1)) :
    Last (limit.map (· - 1)) n (values.drop n) m := by
  refine ⟨?_, ?_, ?_⟩
  · intro j hj
    have := h.before (j + 1) (by omega)
    rwa [complete_succ hle, allMinusOne_succ hle] at this
  · intro k hk
    cases limit with
    | none => simp at hk
    | some L => have := h.within L rfl; simp at hk; omega
  · rcases h.stop with h3 | h3 | h3
    · rw [allMinusOne_succ hle] at h3; exact Or.inl h3
    · subst h3; exact Or.inr (Or.inl (by simp))
    · rw [complete_succ hle] at h3; exact Or.inr (Or.inr h3)

theorem endsWell_tail {limit : Option Nat} {n : Nat} {values : List Nat} {m : Nat} (hle : n ≤ values.length) (h : Last limit n values (m + 1)) :
    EndsWell (limit.map (· - 1)) n (values.drop n) m ↔ EndsWell limit n values (m + 1) := by
  unfold EndsWell
  rw [allMinusOne_succ hle]
  cases limit with
  | none => simp
  | some L =>
    have := h.within L rfl
    simp
    refine or_congr Iff.rfl ?_
    omega

/-- The limit in the loop. -/
def left (o : Opts) (k : Nat) : Option Nat := if o.nslots = 0 then none else some k

theorem readSlot_until {o : Opts} (hu : o.untilMinusOne = true) {n : Nat} {values : List Nat} {bad : Bool} :
    (∀ vs t src', readSlot o.follow n (.file values bad) o.untilMinusOne [] = .slot vs t src' →
      n ≤ values.length ∧ vs = values.take n ∧ vs.length = n ∧ src' = .file (values.drop n) bad ∧ (t = true ↔ AllMinusOne n values 0)) ∧
    (readSlot o.follow n (.file values bad) o.untilMinusOne [] = .failed → ¬ Complete n values 0 ∧ ¬ (bad = false ∧ o.follow = true)) ∧
    (readSlot o.follow n (.file values bad) o.untilMinusOne [] = .waits → ¬ Complete n values 0 ∧ (bad = false ∧ o.follow = true)) := by
  rw [readSlot_file, complete_zero]
  by_cases hle : n ≤ values.length
  · rw [if_pos hle]
    refine ⟨fun vs t src' h => ?_, fun h => (by cases h), fun h => (by cases h)⟩
    simp only [SlotRead.slot.injEq, List.nil_append, hu, Bool.true_and] at h
    obtain ⟨h1, h2, h3⟩ := h
    refine ⟨hle, h1.symm, by rw [← h1]; simp [hle], h3.symm, ?_⟩
    rw [← h2, List.all_eq_true]
    simp only [decide_eq_true_eq]
    unfold AllMinusOne
    rw [← sentinel_eq, slot_zero, complete_zero]
    exact ⟨fun h => ⟨hle, h⟩, fun h => h.2⟩
  · rw [if_neg hle]
    by_cases hb : bad = false ∧ o.follow = true
    · rw [if_pos hb]; exact ⟨fun _ _ _ h => (by cases h), fun h => (by cases h), fun _ => ⟨hle, hb⟩⟩
    · rw [if_neg hb]; exact ⟨fun _ _ _ h => (by cases h), fun _ => ⟨hle, hb⟩, fun h => (by cases h)⟩

open Classical in
theorem loop_coop {σ : Type} {o : Opts} (hu : o.untilMinusOne = true) {talk : Talk σ} {cw : List Nat → Bool} {n k : Nat} {P : List (List Nat) → Prop}
    {I A : List (List Nat) → σ → Prop} (hc : Cooperates talk cw n P I A) {src : Source} {s s' : σ} {msgs : List Msg} {f : Outcome}
    (h : Loop o talk cw n k src s msgs f s') :
    ∀ values bad m done, src = .file values bad → Last (left o k) n values m → I done s → (∀ j, j < m → P (done ++ slots n values (j + 1))) →
      f = (if EndsWell (left o k) n values m then .success else if bad = false ∧ o.follow = true then .waiting else .failure) ∧
        Are msgs (requests n values m ++ if EndsWell (left o k) n values m then [.exit] else []) ∧ I (done ++ slots n values m) s' := by
  have stop0 : ∀ {values : List Nat} {m k : Nat}, Last (left o k) n values m → AllMinusOne n values 0 ∨ left o k = some 0 ∨ ¬ Complete n values 0 → m = 0 := by
    intro values m k hl h0
    by_contra hm
    obtain ⟨h1, h2⟩ := hl.before 0 (by omega)
    rcases h0 with h0 | h0 | h0
    · exact h2 h0
    · have := hl.within _ h0; omega
    · exact h0 h1
  have leftNe : ∀ {k : Nat}, (o.nslots = 0 ∧ o.untilMinusOne = true) ∨ k ≠ 0 → left o k ≠ some 0 := by
    intro k h1 h3
    unfold left at h3
    split at h3
    · cases h3
    · rename_i hn
      cases h3
      rcases h1 with h1 | h1
      · exact hn h1.1
      · exact h1 rfl
  have notWell : ∀ {values : List Nat} {k : Nat}, (o.nslots = 0 ∧ o.untilMinusOne = true) ∨ k ≠ 0 → ¬ Complete n values 0 → ¬ EndsWell (left o k) n values 0 := by
    intro values k h1 h2 h3
    rcases h3 with h3 | h3
    · exact h2 h3.1
    · exact leftNe h1 h3
  have step : ∀ {k : Nat} {values vs : List Nat} {m : Nat} {done : List (List Nat)}, (o.nslots = 0 ∧ o.untilMinusOne = true) ∨ k ≠ 0 →
      n ≤ values.length → vs = values.take n → (false = true ↔ AllMinusOne n values 0) → Last (left o k) n values m →
      (∀ j, j < m → P (done ++ slots n values (j + 1))) →
      ∃ m', m = m' + 1 ∧ P (done ++ [vs]) ∧ ∀ j, j < m' → P ((done ++ [vs]) ++ slots n (values.drop n) (j + 1)) := by
    intro k values vs m done h1 a1 a2 a5 hl hP
    have hm : m ≠ 0 := by
      rintro rfl
      rcases hl.stop with h | h | h
      · cases a5.mpr h
      · exact leftNe h1 h
      · exact h ((complete_zero _ _).mpr a1)
    obtain ⟨m', rfl⟩ := Nat.exists_eq_succ_of_ne_zero hm
    refine ⟨m', rfl, ?_, ?_⟩
    · have := hP 0 (by omega)
      rw [slots_succ] at this
      subst a2
      exact this
    · intro j hj
      have := hP (j + 1) (by omega)
      rw [slots_succ] at this
      subst a2
      rw [List.append_assoc]
      exact this
  induction h with
  | @finished k src s m0 h1 h2 h3 =>
    intro values bad m done he hl hI hP
    have hz : left o k = some 0 := by
      unfold left
      rw [if_neg (fun h0 => h1 ⟨h0, hu⟩), h2]
    have hm := stop0 hl (Or.inr (Or.inl hz))
    subst hm
    have hw : EndsWell (left o k) n values 0 := Or.inr hz
    rw [if_pos hw, if_pos hw]
    exact ⟨rfl, .cons (holds_request .exit h3) .nil, by simpa [slots] using hI⟩
  | @readFails k src s h1 h2 =>
    intro values bad m done he hl hI hP
    subst he
    obtain ⟨h3, h4⟩ := (readSlot_until hu).2.1 h2
    have hm := stop0 hl (Or.inr (Or.inr h3))
    subst hm
    rw [if_neg (notWell h1 h3), if_neg (notWell h1 h3), if_neg h4]
    exact ⟨rfl, .nil, by simpa [slots] using hI⟩
  | @readWaits k src s h1 h2 =>
    intro values bad m done he hl hI hP
    subst he
    obtain ⟨h3, h4⟩ := (readSlot_until hu).2.2 h2
    have hm := stop0 hl (Or.inr (Or.inr h3))
    subst hm
    rw [if_neg (notWell h1 h3), if_neg (notWell h1 h3), if_pos h4]
    exact ⟨rfl, .nil, by simpa [slots] using hI⟩
  | @terminated k src s vs src' m0 h1 h2 h3 =>
    intro values bad m done he hl hI hP
    subst he
    obtain ⟨-, -, -, -, h4⟩ := (readSlot_until hu).1 _ _ _ h2
    have h4 := h4.mp rfl
    have hm := stop0 hl (Or.inl h4)
    subst hm
    have hw : EndsWell (left o k) n values 0 := Or.inl h4
    rw [if_pos hw, if_pos hw]
    exact ⟨rfl, .cons (holds_request .exit h3) .nil, by simpa [slots] using hI⟩
  | @insertFails k src s vs src' m1 b1 r1 s1 w1 h1 h2 h3 h4 h5 h6 =>
    intro values bad m done he hl hI hP
    subst he
    obtain ⟨a1, a2, a3, -, a5⟩ := (readSlot_until hu).1 _ _ _ h2
    obtain ⟨m', -, b1, -⟩ := step h1 a1 a2 a5 hl hP
    obtain ⟨h7, -⟩ := hc.insert hI b1 a3 (buildMessage_some h3) h4
    rw [h5] at h7
    cases h7
    exact absurd rfl h6
  | @slotFails k src s vs src' m1 b1 r1 s1 m2 b2 r2 s2 w2 h1 h2 h3 h4 h5 h6 h7 h8 h9 =>
    intro values bad m done he hl hI hP
    subst he
    obtain ⟨a1, a2, a3, -, a5⟩ := (readSlot_until hu).1 _ _ _ h2
    obtain ⟨m', -, b1, -⟩ := step h1 a1 a2 a5 hl hP
    obtain ⟨-, hA⟩ := hc.insert hI b1 a3 (buildMessage_some h3) h4
    obtain ⟨h10, -⟩ := hc.slot hA b1 (buildMessage_some h6) h7
    rw [h8] at h10
    cases h10
    exact absurd rfl h9
  | @reportFails k src s vs src' m1 b1 r1 s1 m2 b2 r2 s2 ms s3 h1 h2 h3 h4 h5 h6 h7 h8 h9 =>
    intro values bad m done he hl hI hP
    subst he
    obtain ⟨a1, a2, a3, -, a5⟩ := (readSlot_until hu).1 _ _ _ h2
    obtain ⟨m', -, b1, -⟩ := step h1 a1 a2 a5 hl hP
    obtain ⟨-, hA⟩ := hc.insert hI b1 a3 (buildMessage_some h3) h4
    obtain ⟨-, hI2⟩ := hc.slot hA b1 (buildMessage_some h6) h7
    cases (reports_coop hc (by simp) h9 hI2).1
  | @next k src s vs src' m1 b1 r1 s1 m2 b2 r2 s2 ms s3 m4 b4 r4 s4 m5 b5 r5 s5 m6 b6 r6 s6 msgs f s' h1 h2 h3 h4 h5 h6 h7 h8 h9 h10 h11 h12 h13 h14 h15 h16 ih =>
    intro values bad m done he hl hI hP
    subst he
    obtain ⟨a1, a2, a3, a4, a5⟩ := (readSlot_until hu).1 _ _ _ h2
    obtain ⟨m', rfl, c1, c2⟩ := step h1 a1 a2 a5 hl hP
    obtain ⟨-, hA⟩ := hc.insert hI c1 a3 (buildMessage_some h3) h4
    obtain ⟨-, hI2⟩ := hc.slot hA c1 (buildMessage_some h6) h7
    have hI3 := (reports_coop hc (by simp) h9 hI2).2
    have hI4 := hc.other hI3 (by simp) (buildMessage_some h10) h11
    have hI5 := hc.other hI4 (by simp) (buildMessage_some h12) h13
    have hI6 := hc.other hI5 (by simp) (buildMessage_some h14) h15
    have hk : left o (if o.nslots = 0 ∧ o.untilMinusOne = true then k else k - 1) = (left o k).map (· - 1) := by
      unfold left
      by_cases h0 : o.nslots = 0
      · simp [h0]
      · simp [h0]
    obtain ⟨d1, d2, d3⟩ := ih _ _ m' _ a4 (by rw [hk]; exact last_tail a1 hl) hI6 c2
    rw [hk] at d1 d2
    rw [if_congr (endsWell_tail a1 hl) rfl rfl] at d1 d2
    refine ⟨d1, ?_, ?_⟩
    · obtain ⟨l, -, e2, e3⟩ := reports_are h9
      have e3 := e3 rfl
      subst e3
      have hone : Are (m1 :: m2 :: (ms ++ [m4, m5, m6])) (slotRequests (values.take n)) := by
        rw [← a2]
        refine .cons (holds_request (.insert vs) ?_) (.cons (holds_request .slot h6) ?_)
        · simpa [Request.type, Request.words, a3] using h3
        · exact List.rel_append e2 (.cons (holds_request (.output 2 1 0) h10) (.cons (holds_request (.output 2 4 0) h12)
            (.cons (holds_request (.output 2 3 1) h14) .nil)))
      rw [requests_succ, List.append_assoc]
      have := List.rel_append hone d2
      unfold Are
      simpa using this
    · rw [slots_succ, ← a2]
      simpa using d3

/-- **C47** With a server that works, every run of the client simulates exactly the slots that precede the termination slot (or the number of slots asked
for): it sends the requests of these slots and nothing else, then the exit request; the server has got exactly these slots. If the trace
ends before, the client fails or, in follow mode, waits for more. -/
theorem C47_simulates_until_termination {σ : Type} {o : Opts} (hu : o.untilMinusOne = true) {talk : Talk σ} {cw : List Nat → Bool} {n m : Nat}
    {P : List (List Nat) → Prop} {I A : List (List Nat) → σ → Prop} (hc : Cooperates talk cw n P I A) {values : List Nat} {bad : Bool}
    (hl : Last (limitOf o) n values m) (hP : ∀ j, j < m → P (slots n values (j + 1))) {s s' : σ} {msgs : List Msg} {f : Outcome}
    (htotal : ∀ m b r s1, Holds m 4 [] → talk s m b r s1 → extract r 0 = .ok n ∧ I [] s1)
    (h : Client o talk cw (.file values bad) s msgs f s') :
    f = ending o bad n values m ∧ I (slots n values m) s' ∧ ∃ last, Are msgs (.total :: requests n values m ++ last) ∧
      (EndsWell (limitOf o) n values m → last = [.exit]) ∧ (¬ EndsWell (limitOf o) n values m → last = []) := by
  obtain ⟨m0, b, r, s1, n', ms, h1, h2, h3, h4, rfl⟩ := h
  obtain ⟨h5, h6⟩ := htotal _ _ _ _ (buildMessage_some h1) h2
  rw [h3] at h5
  cases h5
  obtain ⟨d1, d2, d3⟩ := loop_coop hu hc h4 values bad m [] rfl hl h6 (by simpa using hP)
  refine ⟨d1, by simpa using d3, _, .cons (holds_request .total h1) d2, fun hw => ?_, fun hw => ?_⟩
  · exact if_pos hw
  · exact if_neg hw

theorem build_small (t : Nat) (ws : List Nat) (h : ws.length ≤ 4) : ∃ m, buildMessage t ws = some m ∧ Holds m t ws :=
  Net.buildMessage_holds t ws (by omega)

theorem reports_exist {σ : Type} {talk : Talk σ} {cw : List Nat → Bool} {n : Nat} {P : List (List Nat) → Prop} {I A : List (List Nat) → σ → Prop}
    (hc : Cooperates talk cw n P I A) (ha : Alive talk n P I A) {done : List (List Nat)} : ∀ {qs : List Nat} (hq : ∀ q ∈ qs, 1 ≤ q ∧ q ≤ 3) {s : σ},
    I done s → ∃ ms s', Reports talk cw qs s ms true s' := by
  intro qs
  induction qs with
  | nil => intro _ s _; exact ⟨[], s, .done⟩
  | cons q qs ih =>
    intro hq s hI
    obtain ⟨m, h1, h2⟩ := build_small 2 [2, 2, q] (by simp)
    have hq' := hq q (by simp)
    obtain ⟨b, r, s', h3⟩ := ha.output hI (by omega) hq'.2 h2
    obtain ⟨rfl, ⟨t, reports, h4, h5⟩, h6⟩ := hc.report hI hq'.1 hq'.2 h2 h3
    obtain ⟨ms, s'', h7⟩ := ih (fun q h => hq q (by simp [h])) h6
    exact ⟨_, _, .next h1 h3 (by simp [tflpOk, h4, h5]) h7⟩

theorem loop_exists {σ : Type} {o : Opts} (hu : o.untilMinusOne = true) {talk : Talk σ} {cw : List Nat → Bool} {n : Nat} (hn : n + 3 < 2147483648)
    {P : List (List Nat) → Prop} {I A : List (List Nat) → σ → Prop} (hc : Cooperates talk cw n P I A) (ha : Alive talk n P I A) {bad : Bool} :
    ∀ (m k : Nat) (values : List Nat) (done : List (List Nat)) (s : σ), Last (left o k) n values m → I done s →
      (∀ j, j < m → P (done ++ slots n values (j + 1))) → ∃ msgs f s', Loop o talk cw n k (.file values bad) s msgs f s' := by
  intro m
  obtain ⟨me, he, -⟩ := build_small 0 [] (by simp)
  have cont : ∀ {k : Nat}, left o k ≠ some 0 → (o.nslots = 0 ∧ o.untilMinusOne = true) ∨ k ≠ 0 := by
    intro k hk
    unfold left at hk
    split at hk
    · rename_i h0; exact Or.inl ⟨h0, hu⟩
    · right; rintro rfl; exact hk rfl
  have fin : ∀ {k : Nat}, left o k = some 0 → ¬ (o.nslots = 0 ∧ o.untilMinusOne = true) ∧ k = 0 := by
    intro k hk
    unfold left at hk
    split at hk
    · cases hk
    · rename_i h0; cases hk; exact ⟨fun h => h0 h.1, rfl⟩
  induction m with
  | zero =>
    intro k values done s hl hI hP
    by_cases hz : left o k = some 0
    · obtain ⟨h1, h2⟩ := fin hz
      exact ⟨_, _, _, .finished h1 h2 he⟩
    · have h1 := cont hz
      cases hr : readSlot o.follow n (.file values bad) o.untilMinusOne [] with
      | failed => exact ⟨_, _, _, .readFails h1 hr⟩
      | waits => exact ⟨_, _, _, .readWaits h1 hr⟩
      | slot vs t src' =>
        obtain ⟨a1, a2, a3, a4, a5⟩ := (readSlot_until hu).1 _ _ _ hr
        have : t = true := by
          rcases hl.stop with h | h | h
          · exact a5.mpr h
          · exact absurd h hz
          · exact absurd ((complete_zero _ _).mpr a1) h
        subst this
        exact ⟨_, _, _, .terminated h1 hr he⟩
  | succ m ih =>
    intro k values done s hl hI hP
    have hz : left o k ≠ some 0 := by
      intro hz; have := hl.within _ hz; omega
    have h1 := cont hz
    obtain ⟨b1, b2⟩ := hl.before 0 (by omega)
    cases hr : readSlot o.follow n (.file values bad) o.untilMinusOne [] with
    | failed => exact ⟨_, _, _, .readFails h1 hr⟩
    | waits => exact ⟨_, _, _, .readWaits h1 hr⟩
    | slot vs t src' =>
      obtain ⟨a1, a2, a3, a4, a5⟩ := (readSlot_until hu).1 _ _ _ hr
      have : t = false := by
        cases t
        · rfl
        · exact absurd (a5.mp rfl) b2
      subst this
      have hP0 : P (done ++ [vs]) := by
        have := hP 0 (by omega)
        rw [slots_succ] at this
        subst a2
        exact this
      obtain ⟨m1, c1, c2⟩ := Net.buildMessage_holds 5 (n :: vs) (by simp [a3]; omega)
      obtain ⟨_, r1, s1, t1⟩ := ha.insert hI hP0 a3 c2
      obtain ⟨e1, i1⟩ := hc.insert hI hP0 a3 c2 t1
      obtain ⟨m2, c3, c4⟩ := build_small 6 [] (by simp)
      obtain ⟨_, r2, s2, t2⟩ := ha.slot i1 hP0 c4
      obtain ⟨e2, i2⟩ := hc.slot i1 hP0 c4 t2
      obtain ⟨ms, s3, t3⟩ := reports_exist hc ha (qs := [1, 2, 3]) (by simp) i2
      obtain ⟨-, i3⟩ := reports_coop hc (by simp) t3 i2
      obtain ⟨m4, c5, c6⟩ := build_small 2 [2, 1, 0] (by simp)
      obtain ⟨_, r4, s4, t4⟩ := ha.output i3 (by omega) (by omega) c6
      have i4 := hc.other i3 (by simp) c6 t4
      obtain ⟨m5, c7, c8⟩ := build_small 2 [2, 4, 0] (by simp)
      obtain ⟨_, r5, s5, t5⟩ := ha.output i4 (by omega) (by omega) c8
      have i5 := hc.other i4 (by simp) c8 t5
      obtain ⟨m6, c9, c10⟩ := build_small 2 [2, 3, 1] (by simp)
      obtain ⟨_, r6, s6, t6⟩ := ha.output i5 (by omega) (by omega) c10
      have i6 := hc.other i5 (by simp) c10 t6
      have hk : left o (if o.nslots = 0 ∧ o.untilMinusOne = true then k else k - 1) = (left o k).map (· - 1) := by
        unfold left
        by_cases h0 : o.nslots = 0
        · simp [h0]
        · simp [h0]
      obtain ⟨msgs, f, s', h⟩ := ih (if o.nslots = 0 ∧ o.untilMinusOne = true then k else k - 1) (values.drop n) (done ++ [vs]) s6
        (by rw [hk]; exact last_tail a1 hl) i6 (by
          intro j hj
          have := hP (j + 1) (by omega)
          rw [slots_succ] at this
          subst a2
          rw [List.append_assoc]
          exact this)
      rw [← a4] at h
      exact ⟨_, _, _, .next h1 hr c1 t1 e1 c3 t2 e2 t3 c5 t4 c7 t5 c9 t6 h⟩

/-- **C47** With a server that works and answers, the client gets to the end: such a run exists. -/
theorem C47_terminates {σ : Type} {o : Opts} (hu : o.untilMinusOne = true) {talk : Talk σ} {cw : List Nat → Bool} {n m : Nat} (hn : n + 3 < 2147483648)
    {P : List (List Nat) → Prop} {I A : List (List Nat) → σ → Prop} (hc : Cooperates talk cw n P I A) (ha : Alive talk n P I A) {values : List Nat} {bad : Bool}
    (hl : Last (limitOf o) n values m) (hP : ∀ j, j < m → P (slots n values (j + 1))) {s : σ}
    (htotal : ∀ m b r s1, Holds m 4 [] → talk s m b r s1 → extract r 0 = .ok n ∧ I [] s1) (hsome : ∀ m, Holds m 4 [] → ∃ b r s1, talk s m b r s1) :
    ∃ msgs f s', Client o talk cw (.file values bad) s msgs f s' := by
  obtain ⟨m0, h1, h2⟩ := build_small 4 [] (by simp)
  obtain ⟨b, r, s1, h3⟩ := hsome m0 h2
  obtain ⟨h4, h5⟩ := htotal _ _ _ _ h2 h3
  obtain ⟨msgs, f, s', h6⟩ := loop_exists hu hn hc ha m o.nslots values [] s1 hl h5 (by simpa using hP)
  exact ⟨_, _, _, _, _, _, _, _, _, h1, h3, h4, h6, rfl⟩

end Verif.Cli
