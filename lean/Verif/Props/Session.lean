import Mathlib.Data.Nat.Digits.Defs
import Verif.Props.ClientServer

/-! # C47: the client and the server of 3D-ICE together -/

set_option linter.unusedSectionVars false
set_option linter.unusedSimpArgs false
set_option linter.unusedVariables false

namespace Verif.Cli
open Verif.Net (Msg extract buildMessage Holds clientDecode IsWord IsByte packBytes)
open Verif.Srv (Request buildMessage_some Env State Next Handles Launched Serving handles_answers handles_total RepliesFit answerOf asked bytesOf kindCode quantityCode)
open Verif.Dim Verif.TG Verif.SM Verif.Flp Verif.Stk Verif.Emu Verif.Out

variable {K : Type} [Field K] [LinearOrder K] [IsStrictOrderedRing K] {π : Type}

/-! ### Specification -/

/-- The server as the client sees it: `none` once it has terminated. Messages arrive with their type and words (C06). When the server terminates
without a reply, or has terminated, the client's message stays as `network_message_init` leaves it. -/
inductive ServerTalk (e : Env K π) : Talk (Option (State K π))
  | reply {s m m' r r' t ws t' ws' s'} : Holds m t ws → Holds m' t ws → Handles e s m' (some r) (.run s') → Holds r t' ws' → Holds r' t' ws' →
      ServerTalk e (some s) m true r' (some s')
  | lastQuit {s m m' r r' t ws t' ws' s'} : Holds m t ws → Holds m' t ws → Handles e s m' (some r) (.quit s') → Holds r t' ws' → Holds r' t' ws' →
      ServerTalk e (some s) m true r' none
  | lastError {s m m' r r' t ws t' ws' s'} : Holds m t ws → Holds m' t ws → Handles e s m' (some r) (.error s') → Holds r t' ws' → Holds r' t' ws' →
      ServerTalk e (some s) m true r' none
  | quit {s m m' t ws s'} : Holds m t ws → Holds m' t ws → Handles e s m' none (.quit s') → ServerTalk e (some s) m false Net.init none
  | error {s m m' t ws s'} : Holds m t ws → Holds m' t ws → Handles e s m' none (.error s') → ServerTalk e (some s) m false Net.init none
  | gone {m} : ServerTalk e none m false Net.init none

/-- What the library does for a list of slots: for each, `insert_power_values` and `emulate_slot`, both successful. -/
inductive SimulatedSlots (cfg : Cfg K π) (s0 : Sim K π) : List (List K) → Sim K π → Prop
  | start : SimulatedSlots cfg s0 [] s0
  | slot {vss vs s s1 s2} : SimulatedSlots cfg s0 vss s → insertPowerValues s vs = (s1, true) → SlotRun cfg s1 .slotDone s2 →
      SimulatedSlots cfg s0 (vss ++ [vs]) s2

/-! ### Proofs -/

theorem holds_unique {m : Msg} {t t' : Nat} {ws ws' : List Nat} (h : Holds m t ws) (h' : Holds m t' ws') : t' = t ∧ ws' = ws := by
  obtain ⟨r, hr⟩ := h.cont
  obtain ⟨r', hr'⟩ := h'.cont
  rw [hr] at hr'
  simp only [List.cons.injEq] at hr'
  obtain ⟨h1, h2, h3⟩ := hr'
  refine ⟨h2.symm, ?_⟩
  exact (List.append_inj h3 (by omega)).1.symm

theorem decode_holds {m : Msg} {time q : Nat} (hq : 1 ≤ q ∧ q ≤ 4) {ps : List Net.Point} (hb : ∀ p ∈ ps, p.Bytes)
    (h : Holds m 2 (time :: ps.length :: ps.flatMap fun p => Net.fillTflp p q)) : clientDecode m = .ok (time, ps.map Net.Point.report) := by
  have x0 : extract m 0 = .ok time := Net.extract_spec h _ _ (by simp)
  have x1 : extract m 1 = .ok ps.length := Net.extract_spec h _ _ (by simp)
  unfold clientDecode
  rw [x0, x1]
  simp only
  by_cases hn : ps.length = 0
  · rw [if_pos hn, List.eq_nil_of_length_eq_zero hn]; rfl
  · rw [if_neg hn]
    have := Net.decodeReports_spec m 2 q hq ps [time, ps.length] hb [] (by simpa using h)
    simp only [List.length_cons, List.length_nil] at this
    rw [this]

/-- A floorplan point as the client gets it. -/
def tflpPoint (e : Env K π) (s : Sim K π) (p : Point K) : Net.Point :=
  ⟨2, quantityCode p.quantity, bytesOf p.file, e.header p,
    match recordOf e.cfg s (simulatedTime e.cfg.an s) p with | some (.line _ vs) => vs.map e.toFloat | _ => []⟩

theorem answer_tflp (e : Env K π) (s : Sim K π) {p : Point K} (hs : Sound p) {q : Nat} (hq : 1 ≤ q ∧ q ≤ 4) (hk : kindCode p.kind = 2)
    (hc : quantityCode p.quantity = q) : answerOf e s p = Net.fillTflp (tflpPoint e s p) q := by
  obtain ⟨-, h2⟩ := hs
  unfold answerOf Net.fillTflp tflpPoint recordOf render
  cases hk' : p.kind with
  | tflp l els =>
    rw [hk'] at h2
    simp only at h2 ⊢
    rw [if_pos hq]
    simp
  | _ => rw [hk'] at hk; simp [kindCode] at hk

theorem bytesOf_bytes (s : String) : ∀ b ∈ bytesOf s, IsByte b := by
  intro b hb
  unfold bytesOf at hb
  simp only [List.mem_map] at hb
  obtain ⟨u, -, rfl⟩ := hb
  exact UInt8.toNat_lt u

/-- The slots done so far, and the state of the server between two slots (`ready = 0`) or before a simulation. -/
def SrvInv (e : Env K π) (ps : List (Point K)) (rs : List (Raw K (List (FlpEl K)))) (s0 : Sim K π) (done : List (List Nat)) (st : Option (State K π)) : Prop :=
  ∃ s, st = some s ∧ Serving e ps rs s ∧ SimulatedSlots e.cfg s0 (done.map (·.map e.ofFloat)) s.sim ∧ s.sim.time = done.length * e.cfg.an.slotLength

def SrvMid (e : Env K π) (ps : List (Point K)) (rs : List (Raw K (List (FlpEl K)))) (s0 : Sim K π) (done : List (List Nat)) (st : Option (State K π)) : Prop :=
  ∃ s pre vs sim, done = pre ++ [vs] ∧ st = some s ∧ Serving e ps rs s ∧ SimulatedSlots e.cfg s0 (pre.map (·.map e.ofFloat)) sim ∧
    insertPowerValues sim (vs.map e.ofFloat) = (s.sim, true) ∧ s.sim.time = pre.length * e.cfg.an.slotLength ∧ ∀ el ∈ elements s.sim, el.powers ≠ []

/-- The slots the server can simulate: words of 32 bits, total time below 2^32 steps. -/
def SrvOk (e : Env K π) (done : List (List Nat)) : Prop :=
  (∀ vs ∈ done, ∀ w ∈ vs, IsWord w) ∧ done.length * e.cfg.an.slotLength < 2 ^ 32

/-- What the server sends when it goes on. -/
theorem talk_answers {e : Env K π} {ps : List (Point K)} {rs : List (Raw K (List (FlpEl K)))} {s : State K π} (hs : Serving e ps rs s)
    (hW : ps.length < 2 ^ 32) {req : Request} (hv : req.Valid) {m : Msg} (hm : Holds m req.type req.words) {b : Bool} {r : Msg}
    {st : Option (State K π)} (h : ServerTalk e (some s) m b r st) :
    ∃ ws n, Srv.Answers e ps s req ws n ∧
      ((∃ s' ws', n = .run s' ∧ st = some s' ∧ Serving e ps rs s' ∧ b = true ∧ ws = some ws' ∧ Holds r req.type ws') ∨ ∀ s', n ≠ .run s') := by
  cases h with
  | @reply s m m' r r' t ws t' ws' s' h1 h2 h3 h4 h5 =>
    obtain ⟨rfl, rfl⟩ := holds_unique hm h1
    obtain ⟨ws, c1, c2, c3⟩ := handles_answers hs hW hv h2 h3
    refine ⟨_, _, c2, Or.inl ?_⟩
    cases ws with
    | none => exact c1.elim
    | some ws =>
      obtain ⟨rfl, rfl⟩ := holds_unique c1 h4
      exact ⟨s', _, rfl, rfl, c3 s' rfl, rfl, rfl, h5⟩
  | @lastQuit s m m' r r' t ws t' ws' s' h1 h2 h3 h4 h5 =>
    obtain ⟨rfl, rfl⟩ := holds_unique hm h1
    obtain ⟨ws, c1, c2, c3⟩ := handles_answers hs hW hv h2 h3
    exact ⟨_, _, c2, Or.inr (by intro s'; simp)⟩
  | @lastError s m m' r r' t ws t' ws' s' h1 h2 h3 h4 h5 =>
    obtain ⟨rfl, rfl⟩ := holds_unique hm h1
    obtain ⟨ws, c1, c2, c3⟩ := handles_answers hs hW hv h2 h3
    exact ⟨_, _, c2, Or.inr (by intro s'; simp)⟩
  | @quit s m m' t ws s' h1 h2 h3 =>
    obtain ⟨rfl, rfl⟩ := holds_unique hm h1
    obtain ⟨ws, c1, c2, c3⟩ := handles_answers hs hW hv h2 h3
    exact ⟨_, _, c2, Or.inr (by intro s'; simp)⟩
  | @error s m m' t ws s' h1 h2 h3 =>
    obtain ⟨rfl, rfl⟩ := holds_unique hm h1
    obtain ⟨ws, c1, c2, c3⟩ := handles_answers hs hW hv h2 h3
    exact ⟨_, _, c2, Or.inr (by intro s'; simp)⟩

theorem slot_healthy {cfg : Cfg K π} (h : Healthy cfg) {s s' : Sim K π} {r : SimResult} (hr : Ready s) (hrun : SlotRun cfg s r s') : r ≠ .solverError := by
  induction hrun with
  | stop he _ => intro hh; exact step_healthy h hr (by rw [he]; exact hh)
  | @again s s1 r s' he _ ih =>
    refine ih ?_
    have := ready_exec (cfg := cfg) hr .step
    simp only [Emu.exec, he] at this
    exact this

theorem server_cooperates {e : Env K π} {ps : List (Point K)} {rs : List (Raw K (List (FlpEl K)))} (hh : Healthy e.cfg) (hps : ps.length < 2 ^ 32)
    (hhead : ∀ p ∈ ps, ∀ b ∈ e.header p, IsByte b) {cw : List Nat → Bool} (hcw : ∀ p ∈ ps, cw (bytesOf p.file) = true) (s0 : Sim K π)
    (hn : (fileElements rs).length + 3 < 1073741824) :
    Cooperates (ServerTalk e) cw (fileElements rs).length (SrvOk e) (SrvInv e ps rs s0) (SrvMid e ps rs s0) := by
  constructor
  · intro done vs st m b r st' hI hP hlen hm ht
    obtain ⟨s, rfl, h1, h2, h3⟩ := hI
    have hv : (Request.insert vs).Valid := by
      refine ⟨?_, ?_, ?_, trivial⟩
      · intro w hw
        simp only [Request.words, List.mem_cons] at hw
        rcases hw with rfl | hw
        · unfold IsWord; omega
        · exact hP.1 vs (by simp) w hw
      · simp [Request.words]; omega
      · simp [Request.type, IsWord]
    obtain ⟨ws, n, c1, c2⟩ := talk_answers h1 hps hv (by simpa [Request.type, Request.words, hlen] using hm) ht
    simp only [Srv.Answers] at c1
    rw [if_pos (by rw [h1.elements]; omega)] at c1
    obtain ⟨rfl, sim, rfl, c3, c4⟩ := c1
    rcases c2 with ⟨s', ws', c5, rfl, c6, rfl, c7, c8⟩ | c2
    · cases c5
      cases c7
      refine ⟨Net.extract_spec c8 0 _ rfl, _, done, vs, s.sim, rfl, rfl, c6, h2, ?_, ?_, ?_⟩
      · have := (C35_inserted_in_order h1.reachable (vs.map e.ofFloat)).1 (by rw [h1.elements, List.length_map, hlen])
        exact Prod.ext c3.symm this.1
      · have := (C35_inserted_in_order h1.reachable (vs.map e.ofFloat)).2.2.2.1
        simp only
        rw [c3, this, h3]
      · intro el hel hp
        have : el.powers ∈ traces sim := List.mem_map_of_mem hel
        rw [c4, List.mem_iff_getElem?] at this
        obtain ⟨i, hi⟩ := this
        rw [List.getElem?_zipWith] at hi
        split at hi
        · simp only [Option.some.injEq] at hi
          rw [hp] at hi
          simp at hi
        · cases hi
    · exact absurd rfl (c2 _)
  · intro done st m b r st' hA hP hm ht
    obtain ⟨s, pre, vs, sim, rfl, rfl, h1, h2, h3, h4, h5⟩ := hA
    have hv : Request.slot.Valid := by simp [Request.Valid, Request.words, Request.type, IsWord]
    obtain ⟨ws, n, c1, c2⟩ := talk_answers h1 hps hv hm ht
    obtain ⟨res, sim', c3, rfl, c4, rfl⟩ := c1
    have hL := h1.slotLength
    have hdm : s.sim.time / e.cfg.an.slotLength = pre.length := by rw [h4, Nat.mul_div_cancel _ hL]
    have hmod : s.sim.time % e.cfg.an.slotLength = 0 := by rw [h4, Nat.mul_mod_left]
    have hr := reachable_ready h1.reachable
    have hne := slot_healthy hh hr c3
    obtain ⟨-, hc⟩ := slotRun_spec h1.transient hL c3 hr (by
      rw [hdm, W_eq]
      have := hP.2
      simpa using this)
    rcases hc with ⟨-, -, ⟨el, hel, h6⟩, -⟩ | ⟨-, -, h6 | ⟨rfl, h6⟩⟩
    · exact absurd h6 (h5 el hel)
    · exact absurd h6 hne
    · rcases c2 with ⟨s', ws', c5, rfl, c6, rfl, c7, c8⟩ | c2
      · cases c7
        cases c5
        refine ⟨Net.extract_spec c8 0 _ rfl, _, rfl, c6, ?_, ?_⟩
        · rw [List.map_append]; exact .slot h2 h3 c3
        · simp only
          rw [h6, hdm]; simp
      · exact absurd rfl (c2 _)
  · intro done st m q b r st' hI hq1 hq2 hm ht
    obtain ⟨s, rfl, h1, h2, h3⟩ := hI
    have hv : (Request.output 2 2 q).Valid := by
      simp [Request.Valid, Request.words, Request.type, IsWord]; omega
    obtain ⟨ws, n, ⟨rfl, rfl⟩, c2⟩ := talk_answers h1 hps hv hm ht
    rcases c2 with ⟨s', ws', c5, rfl, c6, rfl, c7, c8⟩ | c2
    · cases c7
      cases c5
      refine ⟨rfl, ?_, s, rfl, c6, h2, h3⟩
      have hmem : ∀ p ∈ asked ps 2 2 q, p ∈ ps ∧ kindCode p.kind = 2 ∧ quantityCode p.quantity = q := by
        intro p hp
        unfold asked at hp
        obtain ⟨hp1, hp2⟩ := List.mem_filter.mp hp
        simp only [decide_eq_true_eq] at hp2
        exact ⟨List.mem_of_mem_filter hp1, hp2.1, hp2.2.2.2 (Or.inl trivial)⟩
      have hfm : (asked ps 2 2 q).flatMap (answerOf e s.sim) = ((asked ps 2 2 q).map (tflpPoint e s.sim)).flatMap fun p => Net.fillTflp p q := by
        rw [List.flatMap_map]
        apply List.flatMap_congr
        intro p hp
        obtain ⟨a, b, c⟩ := hmem p hp
        exact answer_tflp e s.sim (h1.sound p a) ⟨hq1, by omega⟩ b c
      simp only [Request.type] at c8
      rw [hfm, ← List.length_map (f := tflpPoint e s.sim)] at c8
      have := decode_holds ⟨hq1, by omega⟩ (ps := (asked ps 2 2 q).map (tflpPoint e s.sim)) ?_ c8
      · refine ⟨_, _, this, ?_⟩
        rw [List.all_eq_true]
        intro x hx
        simp only [List.map_map, List.mem_map, Function.comp_apply] at hx
        obtain ⟨p, hp, rfl⟩ := hx
        exact hcw p (hmem p hp).1
      · intro p hp
        obtain ⟨p, hp', rfl⟩ := List.mem_map.mp hp
        exact ⟨bytesOf_bytes _, hhead p (hmem p hp').1⟩
    · exact absurd rfl (c2 _)
  · intro done st m t q b r st' hI htq hm ht
    obtain ⟨s, rfl, h1, h2, h3⟩ := hI
    have hv : (Request.output 2 t q).Valid := by
      simp only [List.mem_cons, Prod.mk.injEq, List.not_mem_nil, or_false] at htq
      rcases htq with ⟨rfl, rfl⟩ | ⟨rfl, rfl⟩ | ⟨rfl, rfl⟩ <;> simp [Request.Valid, Request.words, Request.type, IsWord]
    obtain ⟨ws, n, ⟨rfl, rfl⟩, c2⟩ := talk_answers h1 hps hv hm ht
    rcases c2 with ⟨s', ws', c5, rfl, c6, rfl, c7, c8⟩ | c2
    · cases c5
      exact ⟨s, rfl, c6, h2, h3⟩
    · exact absurd rfl (c2 _)

theorem talk_total {e : Env K π} {ps : List (Point K)} {rs : List (Raw K (List (FlpEl K)))} {s : State K π} (hs : Serving e ps rs s)
    (hW : ps.length < 2 ^ 32) (hfit : RepliesFit e ps) {req : Request} (hv : req.Valid) {m : Msg} (hm : Holds m req.type req.words)
    (hrep : ∀ n, Srv.Answers e ps s req none n → ∀ s', n ≠ .run s') : ∃ b r st, ServerTalk e (some s) m b r st := by
  obtain ⟨rep, n, h⟩ := handles_total hs hW hfit hv hm
  obtain ⟨ws, c1, c2, -⟩ := handles_answers hs hW hv hm h
  cases rep with
  | none =>
    cases ws with
    | some ws => exact c1.elim
    | none =>
      cases n with
      | run s' => exact absurd rfl (hrep _ c2 s')
      | quit s' => exact ⟨_, _, _, .quit hm hm h⟩
      | error s' => exact ⟨_, _, _, .error hm hm h⟩
  | some r =>
    cases ws with
    | none => exact c1.elim
    | some ws =>
      cases n with
      | run s' => exact ⟨_, _, _, .reply hm hm h c1 c1⟩
      | quit s' => exact ⟨_, _, _, .lastQuit hm hm h c1 c1⟩
      | error s' => exact ⟨_, _, _, .lastError hm hm h c1 c1⟩

theorem server_alive {e : Env K π} {ps : List (Point K)} {rs : List (Raw K (List (FlpEl K)))} (hps : ps.length < 2 ^ 32) (hfit : RepliesFit e ps)
    (s0 : Sim K π) (hn : (fileElements rs).length + 3 < 1073741824) :
    Alive (ServerTalk e) (fileElements rs).length (SrvOk e) (SrvInv e ps rs s0) (SrvMid e ps rs s0) := by
  constructor
  · intro done vs st m hI hP hlen hm
    obtain ⟨s, rfl, h1, -, -⟩ := hI
    have hv : (Request.insert vs).Valid := by
      refine ⟨?_, ?_, ?_, trivial⟩
      · intro w hw
        simp only [Request.words, List.mem_cons] at hw
        rcases hw with rfl | hw
        · unfold IsWord; omega
        · exact hP.1 vs (by simp) w hw
      · simp [Request.words]; omega
      · simp [Request.type, IsWord]
    refine talk_total h1 hps hfit hv (by simpa [Request.type, Request.words, hlen] using hm) ?_
    intro n h s' hn
    simp only [Srv.Answers] at h
    rw [if_pos (by rw [h1.elements]; omega)] at h
    cases h.1
  · intro done st m hA hP hm
    obtain ⟨s, pre, vs, sim, rfl, rfl, h1, -⟩ := hA
    refine talk_total h1 hps hfit (req := .slot) (by simp [Request.Valid, Request.words, Request.type, IsWord]) hm ?_
    rintro n ⟨r, sim, -, h, -⟩
    cases h
  · intro done st m t q hI ht hq hm
    obtain ⟨s, rfl, h1, -, -⟩ := hI
    refine talk_total h1 hps hfit (req := .output 2 t q) (by simp [Request.Valid, Request.words, Request.type, IsWord]; omega) hm ?_
    rintro n ⟨h, -⟩
    cases h

/-- **C47** The client of 3D-ICE connected to the server of 3D-ICE, for every stack, every trace and every set of output points: with `--until-minus-one`
the client sends the powers of exactly the slots that precede the first slot whose values are all -1 (at most the number asked for) and then
the exit request, and ends with success; the server has simulated exactly these slots, with these powers, from its initial state, and its time is
their number times the slot length. Hypotheses: the solver does not fail, the client can write the report files, the simulation stays below 2^32 steps
(C08), replies below 8 GiB. -/
theorem C47_client_and_server {e : Env K π} {ps : List (Point K)} {rs : List (Raw K (List (FlpEl K)))} {s : State K π} (hlaunch : Launched e ps rs s)
    (hh : Healthy e.cfg) (hel : (fileElements rs).length + 3 < 2 ^ 30) (hps : ps.length < 2 ^ 32) (hfit : RepliesFit e ps)
    (hhead : ∀ p ∈ ps, ∀ b ∈ e.header p, IsByte b) {cw : List Nat → Bool} (hcw : ∀ p ∈ ps, cw (bytesOf p.file) = true)
    {o : Opts} (hu : o.untilMinusOne = true) {values : List Nat} (hw : ∀ w ∈ values, IsWord w) {bad : Bool} {m : Nat}
    (hl : Last (limitOf o) (fileElements rs).length values m) (ht : m * e.cfg.an.slotLength < 2 ^ 32) :
    (∃ msgs f st, Client o (ServerTalk e) cw (.file values bad) (some s) msgs f st) ∧
    ∀ msgs f st, Client o (ServerTalk e) cw (.file values bad) (some s) msgs f st →
      f = ending o bad (fileElements rs).length values m ∧
      (∃ last, Are msgs (.total :: requests (fileElements rs).length values m ++ last) ∧
        (EndsWell (limitOf o) (fileElements rs).length values m → last = [.exit]) ∧
        (¬ EndsWell (limitOf o) (fileElements rs).length values m → last = [])) ∧
      ∃ s', st = some s' ∧ s'.sim.time = m * e.cfg.an.slotLength ∧
        SimulatedSlots e.cfg s.sim ((slots (fileElements rs).length values m).map (·.map e.ofFloat)) s'.sim := by
  have hel' : (fileElements rs).length + 3 < 1073741824 := by
    rw [show 2 ^ 30 = 1073741824 from by norm_num] at hel; exact hel
  have hs := hlaunch.serving (by rw [show 2 ^ 32 = 4294967296 from by norm_num]; omega)
  have hc := server_cooperates (cw := cw) hh hps hhead hcw s.sim hel'
  have ha := server_alive hps hfit s.sim hel'
  have htime : s.sim.time = 0 := by
    obtain ⟨d0, decl, p, q, h1, h2, h3, -⟩ := hlaunch.built
    exact (started_spec (rs := rs) ⟨d0, decl, p, q, h1, h2, h3⟩).2.2.1
  have hP : ∀ j, j < m → SrvOk e (slots (fileElements rs).length values (j + 1)) := by
    intro j hj
    constructor
    · intro vs hvs w hwv
      simp only [slots, List.mem_map] at hvs
      obtain ⟨i, -, rfl⟩ := hvs
      exact hw w (List.mem_of_mem_drop (List.mem_of_mem_take hwv))
    · simp only [slots, List.length_map, List.length_range]
      exact lt_of_le_of_lt (Nat.mul_le_mul_right _ (by omega)) ht
  have hv : Request.total.Valid := by simp [Request.Valid, Request.words, Request.type, IsWord]
  have htotal : ∀ m b r s1, Holds m 4 [] → ServerTalk e (some s) m b r s1 →
      extract r 0 = .ok (fileElements rs).length ∧ SrvInv e ps rs s.sim [] s1 := by
    intro m b r s1 hm h
    obtain ⟨ws, n, ⟨rfl, rfl⟩, c2⟩ := talk_answers hs hps hv hm h
    rcases c2 with ⟨s', ws', c5, rfl, c6, rfl, c7, c8⟩ | c2
    · cases c7
      cases c5
      refine ⟨?_, s, rfl, c6, .start, by simp [htime]⟩
      rw [← hs.elements]
      exact Net.extract_spec c8 0 _ rfl
    · exact absurd rfl (c2 _)
  refine ⟨?_, ?_⟩
  · refine C47_terminates hu (by omega) hc ha hl hP htotal ?_
    intro m hm
    refine talk_total hs hps hfit hv hm ?_
    rintro n ⟨h, -⟩
    cases h
  · intro msgs f st h
    obtain ⟨h1, ⟨s', h2, -, h3, h4⟩, h5⟩ := C47_simulates_until_termination hu hc hl hP htotal h
    refine ⟨h1, h5, s', h2, ?_, h3⟩
    rw [h4]
    simp [slots]

/-! ### There is always such a number of slots -/

theorem last_exists (limit : Option Nat) (n : Nat) (values : List Nat) : ∃ m, Last limit n values m := by
  classical
  have hex : ∃ m, AllMinusOne n values m ∨ limit = some m ∨ ¬ Complete n values m := by
    by_cases hn : n = 0
    · subst hn
      exact ⟨0, Or.inl ⟨by simp [Complete], by simp [slot]⟩⟩
    · refine ⟨values.length, Or.inr (Or.inr ?_)⟩
      unfold Complete
      have := Nat.le_mul_of_pos_right (values.length + 1) (Nat.pos_of_ne_zero hn)
      omega
  refine ⟨Nat.find hex, ?_, ?_, Nat.find_spec hex⟩
  · intro j hj
    have := Nat.find_min hex hj
    push_neg at this
    exact ⟨this.2.2, this.1⟩
  · intro k hk
    exact Nat.find_min' hex (Or.inr (Or.inl hk))

/-! ### The arguments -/

/-- The text is a number: decimal digits, at least one. -/
def IsDecimal (s : String) : Prop := s ≠ "" ∧ ∀ c ∈ s.toList, c ∈ "0123456789".toList

/-- The value of a text of decimal digits. -/
def decimal (s : String) : Nat := Nat.ofDigits 10 (s.toList.reverse.map fun c => "0123456789".toList.idxOf c)

/-- `nslots ip port [file options]`, or `ip port file options` with an address that is not a number; at most two options, known ones. The number of slots is what
`atol` reads (at most 2^63-1), cut to 32 bits. Without a (non-zero) number of slots `--until-minus-one` is necessary. -/
def Usage (canRead : String → Bool) (args : List String) (o : Opts) : Prop :=
  ∃ ip port opts, ip.utf8ByteSize ≤ 49 ∧ (∀ a ∈ opts, a = "--follow" ∨ a = "--until-minus-one") ∧ opts.length ≤ 2 ∧
    (o.follow = true ↔ "--follow" ∈ opts) ∧ (o.untilMinusOne = true ↔ "--until-minus-one" ∈ opts) ∧ (o.nslots = 0 → o.untilMinusOne = true) ∧
    ((∃ num, IsDecimal num ∧ o.nslots = min (decimal num) (2 ^ 63 - 1) % 2 ^ 32 ∧
        ((args = [num, ip, port] ∧ opts = [] ∧ o.trace = none) ∨
          ∃ file, canRead file = true ∧ args = num :: ip :: port :: file :: opts ∧ o.trace = some file)) ∨
      (¬ IsDecimal ip ∧ o.nslots = 0 ∧ ∃ file, canRead file = true ∧ args = ip :: port :: file :: opts ∧ o.trace = some file))

/-- The same with the functions of the model. -/
def Usage0 (canRead : String → Bool) (args : List String) (o : Opts) : Prop :=
  ∃ ip port opts, ip.utf8ByteSize ≤ 49 ∧ (∀ a ∈ opts, a = "--follow" ∨ a = "--until-minus-one") ∧ opts.length ≤ 2 ∧
    (o.follow = true ↔ "--follow" ∈ opts) ∧ (o.untilMinusOne = true ↔ "--until-minus-one" ∈ opts) ∧ (o.nslots = 0 → o.untilMinusOne = true) ∧
    ((∃ num, isNumber num = true ∧ o.nslots = slotsOf num ∧
        ((args = [num, ip, port] ∧ opts = [] ∧ o.trace = none) ∨
          ∃ file, canRead file = true ∧ args = num :: ip :: port :: file :: opts ∧ o.trace = some file)) ∨
      (isNumber ip = false ∧ o.nslots = 0 ∧ ∃ file, canRead file = true ∧ args = ip :: port :: file :: opts ∧ o.trace = some file))

theorem digit_iff (c : Char) : ('0' ≤ c ∧ c ≤ '9') ↔ c ∈ "0123456789".toList := by
  have e : "0123456789".toList = ['0','1','2','3','4','5','6','7','8','9'] := by decide +kernel
  rw [e]
  constructor
  · rintro ⟨h1, h2⟩
    have h1 : 48 ≤ c.toNat := h1
    have h2 : c.toNat ≤ 57 := h2
    have : ∀ d : Char, c.toNat = d.toNat → c = d := fun d h => Char.toNat_inj.mp h
    have hc : c.toNat = 48 ∨ c.toNat = 49 ∨ c.toNat = 50 ∨ c.toNat = 51 ∨ c.toNat = 52 ∨ c.toNat = 53 ∨ c.toNat = 54 ∨ c.toNat = 55 ∨ c.toNat = 56 ∨ c.toNat = 57 := by omega
    rcases hc with h | h | h | h | h | h | h | h | h | h
    · rw [this '0' h]; decide
    · rw [this '1' h]; decide
    · rw [this '2' h]; decide
    · rw [this '3' h]; decide
    · rw [this '4' h]; decide
    · rw [this '5' h]; decide
    · rw [this '6' h]; decide
    · rw [this '7' h]; decide
    · rw [this '8' h]; decide
    · rw [this '9' h]; decide
  · intro h
    simp only [List.mem_cons, List.not_mem_nil, or_false] at h
    rcases h with rfl | rfl | rfl | rfl | rfl | rfl | rfl | rfl | rfl | rfl <;> decide

theorem digit_value {c : Char} (h : c ∈ "0123456789".toList) : c.toNat - 48 = "0123456789".toList.idxOf c := by
  have e : "0123456789".toList = ['0','1','2','3','4','5','6','7','8','9'] := by decide +kernel
  rw [e] at h ⊢
  simp only [List.mem_cons, List.not_mem_nil, or_false] at h
  rcases h with rfl | rfl | rfl | rfl | rfl | rfl | rfl | rfl | rfl | rfl <;> decide

theorem isNumber_iff (s : String) : isNumber s = true ↔ IsDecimal s := by
  unfold isNumber IsDecimal
  rw [Bool.and_eq_true, decide_eq_true_eq, List.all_eq_true]
  have : s.toList ≠ [] ↔ s ≠ "" := by rw [Ne, Ne, String.toList_eq_nil_iff]
  rw [this]
  simp only [decide_eq_true_eq, digit_iff]

theorem isNumber_not (s : String) : isNumber s = false ↔ ¬ IsDecimal s := by
  rw [← isNumber_iff]; simp

theorem fold_digits : ∀ (l : List Char) (n : Nat), (∀ c ∈ l, c ∈ "0123456789".toList) → l.foldl (fun n c => 10 * n + (c.toNat - 48)) n =
    Nat.ofDigits 10 (l.reverse.map fun c => "0123456789".toList.idxOf c) + 10 ^ l.length * n := by
  intro l
  induction l with
  | nil => intro n _; simp
  | cons c l ih =>
    intro n h
    rw [List.foldl_cons, ih _ fun d hd => h d (List.mem_cons_of_mem _ hd), digit_value (h c List.mem_cons_self), List.reverse_cons, List.map_append,
      Nat.ofDigits_append, List.length_map, List.length_reverse, List.map_cons, List.map_nil, Nat.ofDigits_singleton, List.length_cons, pow_succ]
    ring

theorem slotsOf_eq {s : String} (h : IsDecimal s) : slotsOf s = min (decimal s) (2 ^ 63 - 1) % 2 ^ 32 := by
  unfold slotsOf decimal Net.W
  rw [fold_digits _ 0 h.2]
  rfl
theorem usage_iff (canRead : String → Bool) (args : List String) (o : Opts) : Usage0 canRead args o ↔ Usage canRead args o := by
  unfold Usage0 Usage
  constructor
  · rintro ⟨ip, port, opts, h1, h2, h3, h4, h5, h6, ⟨num, h7, h8, h9⟩ | ⟨h7, h8⟩⟩
    · have h7 := (isNumber_iff _).mp h7
      exact ⟨ip, port, opts, h1, h2, h3, h4, h5, h6, Or.inl ⟨num, h7, h8.trans (slotsOf_eq h7), h9⟩⟩
    · exact ⟨ip, port, opts, h1, h2, h3, h4, h5, h6, Or.inr ⟨(isNumber_not _).mp h7, h8⟩⟩
  · rintro ⟨ip, port, opts, h1, h2, h3, h4, h5, h6, ⟨num, h7, h8, h9⟩ | ⟨h7, h8⟩⟩
    · exact ⟨ip, port, opts, h1, h2, h3, h4, h5, h6, Or.inl ⟨num, (isNumber_iff _).mpr h7, h8.trans (slotsOf_eq h7).symm, h9⟩⟩
    · exact ⟨ip, port, opts, h1, h2, h3, h4, h5, h6, Or.inr ⟨(isNumber_not _).mpr h7, h8⟩⟩

theorem options_eq : ∀ (as : List String) (fl : Bool × Bool) (r : Bool × Bool), options as fl = some r ↔
    (∀ a ∈ as, a = "--follow" ∨ a = "--until-minus-one") ∧ (r.1 = true ↔ fl.1 = true ∨ "--follow" ∈ as) ∧
      (r.2 = true ↔ fl.2 = true ∨ "--until-minus-one" ∈ as) := by
  intro as
  induction as with
  | nil =>
    intro fl r
    obtain ⟨a, b⟩ := fl
    obtain ⟨c, d⟩ := r
    cases a <;> cases b <;> cases c <;> cases d <;> simp [options]
  | cons a as ih =>
    intro fl r
    unfold options
    by_cases h1 : a = "--follow"
    · subst h1
      rw [if_pos rfl, ih]
      simp
    · rw [if_neg h1]
      by_cases h2 : a = "--until-minus-one"
      · subst h2
        rw [if_pos rfl, ih]
        simp
      · rw [if_neg h2]
        simp [h1, h2]

/-- The part of `parseArgs` after the positional arguments. -/
theorem parse_tail (canRead : String → Bool) (n : Nat) (file : Option String) (opts : List String) (o : Opts) :
    finishArgs canRead n file opts = some o ↔
    (∀ f, file = some f → canRead f = true) ∧ (∀ a ∈ opts, a = "--follow" ∨ a = "--until-minus-one") ∧ (o.follow = true ↔ "--follow" ∈ opts) ∧
      (o.untilMinusOne = true ↔ "--until-minus-one" ∈ opts) ∧ (o.nslots = 0 → o.untilMinusOne = true) ∧ (o.untilMinusOne = true → file ≠ none) ∧
      o.nslots = n ∧ o.trace = file := by
  obtain ⟨on, ou, of, ot⟩ := o
  unfold finishArgs
  by_cases h1 : (file.any fun f => !canRead f) = true
  · rw [if_pos h1]
    cases file with
    | none => simp at h1
    | some f => simp at h1; simp [h1]
  · rw [if_neg h1]
    have h1' : ∀ f, file = some f → canRead f = true := by
      rintro f rfl; simpa using h1
    cases hr : options opts (false, false) with
    | none =>
      simp only [reduceCtorEq, false_iff]
      rintro ⟨-, h2, h3, h4, -⟩
      have := (options_eq opts (false, false) (of, ou)).mpr ⟨h2, by simpa using h3, by simpa using h4⟩
      rw [hr] at this
      cases this
    | some r =>
      obtain ⟨fo, un⟩ := r
      obtain ⟨h2, h3, h4⟩ := (options_eq opts (false, false) (fo, un)).mp hr
      simp only [Bool.false_eq_true, false_or] at h3 h4
      simp only
      by_cases h5 : un = true ∧ file = none
      · rw [if_pos h5]
        simp only [reduceCtorEq, false_iff]
        rintro ⟨-, -, -, h6, -, h7, -⟩
        exact h7 (h6.mpr (h4.mp h5.1)) h5.2
      · rw [if_neg h5]
        by_cases h6 : n = 0 ∧ un = false
        · rw [if_pos h6]
          simp only [reduceCtorEq, false_iff]
          rintro ⟨-, -, -, h7, h8, -, h9, -⟩
          have := h4.mpr (h7.mp (h8 (h9.trans h6.1)))
          rw [h6.2] at this
          cases this
        · rw [if_neg h6]
          simp only [Option.some.injEq, Opts.mk.injEq]
          constructor
          · rintro ⟨rfl, rfl, rfl, rfl⟩
            refine ⟨h1', h2, h3, h4, ?_, ?_, rfl, rfl⟩
            · intro hn; cases hu : un <;> simp_all
            · intro hu hf; exact h5 ⟨hu, hf⟩
          · rintro ⟨-, -, h7, h8, -, -, h9, h10⟩
            refine ⟨h9.symm, ?_, ?_, h10.symm⟩
            · rw [← Bool.coe_iff_coe, h8, h4]
            · rw [← Bool.coe_iff_coe, h7, h3]

/-- **C47** The client starts exactly on the documented forms of its arguments, with the meaning they are documented to have. -/
theorem C47_arguments (canRead : String → Bool) (args : List String) (o : Opts) : parseArgs canRead args = some o ↔ Usage canRead args o := by
  rw [← usage_iff]
  have hsplit : parseArgs canRead args = some o ↔ ¬ (args.length < 3 ∨ args.length > 6) ∧
      ((isNumber (args.headD "") = true ∧ (args.getD 1 "").utf8ByteSize ≤ 49 ∧
          ((∀ f, args[3]? = some f → canRead f = true) ∧ (∀ a ∈ args.drop 4, a = "--follow" ∨ a = "--until-minus-one") ∧ (o.follow = true ↔ "--follow" ∈ args.drop 4) ∧
            (o.untilMinusOne = true ↔ "--until-minus-one" ∈ args.drop 4) ∧ (o.nslots = 0 → o.untilMinusOne = true) ∧ (o.untilMinusOne = true → args[3]? ≠ none) ∧
            o.nslots = slotsOf (args.headD "") ∧ o.trace = args[3]?)) ∨
        (isNumber (args.headD "") = false ∧ 4 ≤ args.length ∧ args.length ≤ 5 ∧ (args.headD "").utf8ByteSize ≤ 49 ∧
          ((∀ f, args[2]? = some f → canRead f = true) ∧ (∀ a ∈ args.drop 3, a = "--follow" ∨ a = "--until-minus-one") ∧ (o.follow = true ↔ "--follow" ∈ args.drop 3) ∧
            (o.untilMinusOne = true ↔ "--until-minus-one" ∈ args.drop 3) ∧ (o.nslots = 0 → o.untilMinusOne = true) ∧ (o.untilMinusOne = true → args[2]? ≠ none) ∧
            o.nslots = 0 ∧ o.trace = args[2]?))) := by
    unfold parseArgs
    by_cases h1 : args.length < 3 ∨ args.length > 6
    · rw [if_pos h1]; simp [h1]
    rw [if_neg h1]
    simp only [h1, not_false_eq_true, true_and]
    cases hn : isNumber (args.headD "") with
    | true =>
      simp only [if_true, true_and, Bool.true_eq_false, false_and, or_false]
      by_cases h2 : (args.getD 1 "").utf8ByteSize > 49
      · simp only [h2, if_true, reduceCtorEq, false_iff]; omega
      · simp only [h2, if_false]
        rw [parse_tail]
        simp only [show (args.getD 1 "").utf8ByteSize ≤ 49 by omega, true_and]
    | false =>
      simp only [Bool.false_eq_true, if_false, false_and, false_or, true_and]
      by_cases h2 : args.length < 4 ∨ args.length > 5
      · simp only [h2, if_true, reduceCtorEq, false_iff]; omega
      · simp only [h2, if_false]
        by_cases h3 : (args.headD "").utf8ByteSize > 49
        · simp only [h3, if_true, reduceCtorEq, false_iff]; omega
        · simp only [h3, if_false]
          rw [parse_tail]
          simp only [show (args.headD "").utf8ByteSize ≤ 49 by omega, show 4 ≤ args.length by omega, show args.length ≤ 5 by omega, true_and]
  rw [hsplit]
  unfold Usage0
  constructor
  · rintro ⟨h1, ⟨h2, h3, h4, h5, h6, h7, h8, h9, h10, h11⟩ | ⟨h2, h3, h3', h3'', h4, h5, h6, h7, h8, h9, h10, h11⟩⟩
    · match args, h1, h2, h3, h4, h5, h6, h7, h9, h10, h11 with
      | [a, b, c], h1, h2, h3, h4, h5, h6, h7, h9, h10, h11 =>
        exact ⟨b, c, [], h3, by simp, by simp, h6, h7, h8, Or.inl ⟨a, h2, h10, Or.inl ⟨rfl, rfl, h11⟩⟩⟩
      | a :: b :: c :: d :: l, h1, h2, h3, h4, h5, h6, h7, h9, h10, h11 =>
        exact ⟨b, c, l, h3, h5, by simp at h1; omega, h6, h7, h8, Or.inl ⟨a, h2, h10, Or.inr ⟨d, h4 d rfl, rfl, h11⟩⟩⟩
      | [], h1, _, _, _, _, _, _, _, _, _ => simp at h1
      | [_], h1, _, _, _, _, _, _, _, _, _ => simp at h1
      | [_, _], h1, _, _, _, _, _, _, _, _, _ => simp at h1
    · match args, h2, h3, h3', h3'', h4, h5, h6, h7, h9, h10, h11 with
      | a :: b :: c :: l, h2, h3, h3', h3'', h4, h5, h6, h7, h9, h10, h11 =>
        exact ⟨a, b, l, h3'', h5, by simp at h3'; omega, h6, h7, h8, Or.inr ⟨h2, h10, c, h4 c rfl, rfl, h11⟩⟩
      | [], _, h1, _, _, _, _, _, _, _, _, _ => simp at h1
      | [_], _, h1, _, _, _, _, _, _, _, _, _ => simp at h1
      | [_, _], _, h1, _, _, _, _, _, _, _, _, _ => simp at h1
  · rintro ⟨ip, port, opts, h1, h2, h3, h4, h5, h6, ⟨num, h7, h8, ⟨rfl, rfl, h9⟩ | ⟨file, h9, rfl, h10⟩⟩ | ⟨h7, h8, file, h9, rfl, h10⟩⟩
    · refine ⟨by simp, Or.inl ⟨h7, h1, by simp, by simp, h4, h5, h6, ?_, h8, h9⟩⟩
      intro hu; simp [hu] at h5
    · refine ⟨by simp; omega, Or.inl ⟨h7, h1, ?_, h2, h4, h5, h6, ?_, h8, h10⟩⟩
      · intro f hf; simp at hf; exact hf ▸ h9
      · simp
    · have hne : opts ≠ [] := by
        rintro rfl
        have := h5.mp (h6 h8)
        simp at this
      have : opts.length ≠ 0 := by simpa using hne
      refine ⟨by simp; omega, Or.inr ⟨h7, by simp; omega, by simp; omega, h1, ?_, h2, h4, h5, h6, ?_, h8, h10⟩⟩
      · intro f hf; simp at hf; exact hf ▸ h9
      · simp

/-- **C47 is violated** for numbers of slots above 2^32-1: `nslots` is cut to 32 bits, so 4294967297 means one slot, and 4294967296 means no limit. -/
theorem C47_large_number_violated (canRead : String → Bool) (h : canRead "trace" = true) :
    (∃ o, parseArgs canRead ["4294967297", "127.0.0.1", "10024", "trace", "--until-minus-one"] = some o ∧ limitOf o = some 1) ∧
    (∃ o, parseArgs canRead ["4294967296", "127.0.0.1", "10024", "trace", "--until-minus-one"] = some o ∧ limitOf o = none) := by
  refine ⟨⟨⟨1, true, false, some "trace"⟩, ?_, rfl⟩, ⟨⟨0, true, false, some "trace"⟩, ?_, rfl⟩⟩
  · have e1 : slotsOf "4294967297" = 1 := by decide +kernel
    have e2 : isNumber "4294967297" = true := by decide +kernel
    have e3 : ¬ ("127.0.0.1".utf8ByteSize > 49) := by decide +kernel
    simp [parseArgs, finishArgs, e1, e2, e3, options, h]
  · have e1 : slotsOf "4294967296" = 0 := by decide +kernel
    have e2 : isNumber "4294967296" = true := by decide +kernel
    have e3 : ¬ ("127.0.0.1".utf8ByteSize > 49) := by decide +kernel
    simp [parseArgs, finishArgs, e1, e2, e3, options, h]

/-! ### Examples -/

/-- Non-vacuity: two elements; a slot, a termination slot, another slot. -/
theorem demo_last : Last none 2 [8, minusOne, minusOne, minusOne, 1, 2] 1 := by
  refine ⟨?_, by simp, Or.inl ⟨by simp [Complete], by simp [slot]⟩⟩
  intro j hj
  have : j = 0 := by omega
  subst this
  refine ⟨by simp [Complete], fun h => ?_⟩
  have := h.2 8 (by simp [slot])
  simp [minusOne] at this

example (bad follow : Bool) : ∃ msgs st s', Client ⟨0, true, follow, some "trace"⟩ (ServerTalk Srv.demoEnv) (fun _ => true)
    (.file [8, minusOne, minusOne, minusOne, 1, 2] bad) (some Srv.demoState) msgs .success st ∧
    Are msgs [.total, .insert [8, minusOne], .slot, .output 2 2 1, .output 2 2 2, .output 2 2 3, .output 2 1 0, .output 2 4 0, .output 2 3 1, .exit] ∧
    st = some s' ∧ s'.sim.time = 2 := by
  have hlen : (fileElements (demoRaw [1, 2] [4])).length = 2 := by decide +kernel
  have hl : Last (limitOf ⟨0, true, follow, some "trace"⟩) (fileElements (demoRaw [1, 2] [4])).length [8, minusOne, minusOne, minusOne, 1, 2] 1 := by
    rw [hlen]; exact demo_last
  obtain ⟨⟨msgs, f, st, h1⟩, h2⟩ := C47_client_and_server (cw := fun _ => true) (bad := bad) Srv.demo_launched (demo_healthy .transient 2)
    (by rw [hlen]; norm_num) (by decide) Srv.demo_fits (by intro p _ b hb; simp [Srv.demoEnv] at hb; unfold IsByte; omega) (fun _ _ => rfl)
    (o := ⟨0, true, follow, some "trace"⟩) rfl (by intro w hw; simp [minusOne] at hw; unfold IsWord; omega) hl (by decide)
  obtain ⟨h3, ⟨last, h4, h5, -⟩, s', h6, h7, -⟩ := h2 msgs f st h1
  have hw : EndsWell (limitOf ⟨0, true, follow, some "trace"⟩) (fileElements (demoRaw [1, 2] [4])).length [8, minusOne, minusOne, minusOne, 1, 2] 1 := by
    rw [hlen]; exact Or.inl ⟨by simp [Complete], by simp [slot]⟩
  have h3' : f = .success := by rw [h3]; unfold ending; exact if_pos hw
  subst h3'
  refine ⟨msgs, st, s', h1, ?_, h6, h7⟩
  rw [h5 hw, hlen] at h4
  exact h4

/-- Non-vacuity: arguments without a number of slots. -/
example : ∃ o, parseArgs (fun _ => true) ["127.0.0.1", "10024", "trace", "--until-minus-one", "--follow"] = some o ∧ o = ⟨0, true, true, some "trace"⟩ := by
  refine ⟨_, (C47_arguments _ _ _).mpr ?_, rfl⟩
  refine ⟨"127.0.0.1", "10024", ["--until-minus-one", "--follow"], by decide +kernel, by simp, by simp, by simp, by simp, by simp, Or.inr ⟨(isNumber_not _).mp (by decide +kernel), rfl, "trace", rfl, rfl, rfl⟩⟩

end Verif.Cli
