import Verif.Model.Wrapper
import Verif.Props.Server

/-! # C79: the SystemC wrapper -/

set_option linter.unusedSectionVars false
set_option linter.unusedSimpArgs false
set_option linter.unusedVariables false

namespace Verif.Wrap
open Verif.Net (Msg ReadEv extract buildMessage receive Holds IsWord)
open Verif.Dim Verif.TG Verif.SM Verif.Flp Verif.Stk Verif.Emu Verif.Out Verif.Srv

variable {K : Type} [Field K] [LinearOrder K] [IsStrictOrderedRing K] {π : Type}

/-! ### Specification -/

/-- The message `r` is what the wrapper receives when the server sends `rep` and the connection stays up (`C06_end_to_end`): the same type and the
same words. -/
def Delivered (rep r : Msg) : Prop := ∀ t ws, Holds rep t ws → Holds r t ws

/-- The word a point stands for: the only value of its line in the output file. -/
def SingleValue (e : Env K π) (s : Sim K π) (w : Nat) (p : Point K) : Prop :=
  ∃ v, recordOf e.cfg s (simulatedTime e.cfg.an s) p = some (.line (simulatedTime e.cfg.an s) [v]) ∧ w = e.toFloat v

/-! ### Proofs: reading a reply -/

theorem W32 : Net.W = 4294967296 := by unfold Net.W; rfl

theorem temperaturesFrom_eq {m : Msg} {t : Nat} {ws : List Nat} (h : Holds m t ws) : ∀ (n i : Nat), i + n ≤ ws.length →
    temperaturesFrom m n i = (ws.drop i).take n := by
  intro n
  induction n with
  | zero => intro i _; simp [temperaturesFrom]
  | succ n ih =>
    intro i hi
    have hlt : i < ws.length := by omega
    have hx := Net.extract_spec h i _ (List.getElem?_eq_getElem hlt)
    have hb : ws.length + 2 ≤ m.maxLen := h.fits
    have hW := h.hi
    rw [W32] at hW
    unfold temperaturesFrom temperatureAt
    rw [hx]
    simp only
    rw [Nat.mod_eq_of_lt (by omega), ih (i + 1) (by omega), List.drop_eq_getElem_cons hlt, List.take_succ_cons]

theorem mapCell_eq {m : Msg} {t : Nat} {ws : List Nat} (h : Holds m t ws) {i x : Nat} (hi : i + 1 < ws.length) :
    mapCell m (i, x) = (i + 1, ws[i + 1]) := by
  have hx := Net.extract_spec h (i + 1) _ (List.getElem?_eq_getElem hi)
  have hb : ws.length + 2 ≤ m.maxLen := h.fits
  have hW := h.hi
  rw [W32] at hW
  unfold mapCell
  simp only
  rw [Nat.mod_eq_of_lt (by omega), hx]

/-- The words a row, then several rows, consist of: one after the other. -/
def stream (m : Msg) : Nat → Nat × Nat → List Nat × (Nat × Nat)
  | 0, st => ([], st)
  | n + 1, st => ((mapCell m st).2 :: (stream m n (mapCell m st)).1, (stream m n (mapCell m st)).2)

theorem mapRow_stream (m : Msg) : ∀ n st, mapRow m n st = stream m n st := by
  intro n
  induction n with
  | zero => intro st; rfl
  | succ n ih => intro st; simp [mapRow, stream, ih]

theorem stream_add (m : Msg) (b : Nat) : ∀ (a : Nat) (st : Nat × Nat), stream m (a + b) st =
    ((stream m a st).1 ++ (stream m b (stream m a st).2).1, (stream m b (stream m a st).2).2) := by
  intro a
  induction a with
  | zero => intro st; simp [stream]
  | succ a ih => intro st; rw [Nat.add_right_comm]; simp [stream, ih]

theorem stream_length (m : Msg) : ∀ (a : Nat) (st : Nat × Nat), (stream m a st).1.length = a := by
  intro a
  induction a with
  | zero => intro st; rfl
  | succ a ih => intro st; simp [stream, ih]

theorem mapLoop_stream (m : Msg) (c : Nat) : ∀ n st, (mapLoop m c n st).1.flatten = (stream m (n * c) st).1 ∧ (mapLoop m c n st).2 = (stream m (n * c) st).2 ∧
    (mapLoop m c n st).1.length = n ∧ ∀ row ∈ (mapLoop m c n st).1, row.length = c := by
  intro n
  induction n with
  | zero => intro st; simp [mapLoop, stream]
  | succ n ih =>
    intro st
    have h1 := ih (stream m c st).2
    rw [Nat.succ_mul, Nat.add_comm (n * c) c, stream_add]
    simp only [mapLoop, mapRow_stream]
    refine ⟨by rw [List.flatten_cons, h1.1], h1.2.1, by rw [List.length_cons, h1.2.2.1], ?_⟩
    intro row hr
    rcases List.mem_cons.mp hr with rfl | hr
    · exact stream_length m c st
    · exact h1.2.2.2 row hr

theorem stream_eq {m : Msg} {t : Nat} {ws : List Nat} (h : Holds m t ws) : ∀ (n i x : Nat), i + n < ws.length →
    (stream m n (i, x)).1 = (ws.drop (i + 1)).take n ∧ (stream m n (i, x)).2.1 = i + n := by
  intro n
  induction n with
  | zero => intro i x _; simp [stream]
  | succ n ih =>
    intro i x hi
    have hlt : i + 1 < ws.length := by omega
    obtain ⟨h1, h2⟩ := ih (i + 1) ws[i + 1] (by omega)
    simp only [stream, mapCell_eq h hlt, h1, h2]
    rw [List.drop_eq_getElem_cons hlt, List.take_succ_cons]
    exact ⟨rfl, by omega⟩

theorem valid_output {i t q : Nat} (hi : IsWord i) (ht : IsWord t) (hq : IsWord q) : (Request.output i t q).Valid := by
  refine ⟨?_, by simp [Request.words], by simp [Request.type, IsWord], trivial⟩
  intro w hw
  simp only [Request.words, List.mem_cons, List.not_mem_nil, or_false] at hw
  rcases hw with rfl | rfl | rfl <;> assumption

/-- The words the server sends for an output request. -/
theorem output_reply {e : Env K π} {ps : List (Point K)} {rs : List (Raw K (List (FlpEl K)))} {s : State K π} (hs : Serving e ps rs s)
    (hps : ps.length < 2 ^ 32) {i t q : Nat} (hi : IsWord i) (ht : IsWord t) (hq : IsWord q) {m : Msg} (hm : outputRequest i t q = some m)
    {rep : Option Msg} {n : Next K π} (hr : Handles e s m rep n) : ∃ r', rep = some r' ∧
      Holds r' 2 (e.toFloat ((s.sim.time : K) * e.cfg.an.stepTime) :: (asked ps i t q).length :: (asked ps i t q).flatMap (answerOf e s.sim)) := by
  obtain ⟨ws, c1, ⟨c2, -⟩, -⟩ := handles_answers hs hps (valid_output hi ht hq) (buildMessage_some hm : Holds m 2 [i, t, q]) hr
  subst c2
  cases rep with
  | none => exact c1.elim
  | some r' => exact ⟨r', rfl, c1⟩

/-! ### C79 -/

theorem holds_same {m : Msg} {t t' : Nat} {ws ws' : List Nat} (h : Holds m t ws) (h' : Holds m t' ws') : t' = t ∧ ws' = ws := by
  obtain ⟨r, hr⟩ := h.cont
  obtain ⟨r', hr'⟩ := h'.cont
  rw [hr] at hr'
  simp only [List.cons.injEq] at hr'
  obtain ⟨h1, h2, h3⟩ := hr'
  refine ⟨h2.symm, ?_⟩
  exact (List.append_inj h3 (by omega)).1.symm

/-- **C79** (delivery): a reply that the server sends without an error is delivered to the wrapper, however the socket cuts and interrupts it on either side, provided
that no `read` fails and the data keep coming. -/
theorem C79_delivered {rep : Msg} {t : Nat} {ws : List Nat} (h : Holds rep t ws) (ht : IsWord t) (hws : ∀ w ∈ ws, IsWord w)
    (hlen : ws.length + 2 < 1073741824) (wsched : List Net.WriteEv) (sent tail : List Nat) (hsend : Net.send wsched rep = some (.ok, sent))
    (rsched : List ReadEv) (hs : ∀ ev ∈ rsched, ev ≠ .err) (hen : 4 * (ws.length + 2) ≤ Net.dataCount rsched) :
    ∃ r, receive rsched (sent ++ tail) Net.init = some r ∧ r.status = .ok ∧ r.rest = tail ∧ Delivered rep r.msg := by
  obtain ⟨r, h1, h2, h3, h4⟩ := Net.C06_end_to_end rep t ws h ht hws hlen wsched sent tail hsend rsched hs hen
  refine ⟨r, h1, h2, h4, ?_⟩
  intro t' ws' h'
  obtain ⟨rfl, rfl⟩ := holds_same h h'
  exact h3

/-- **C79** (number of elements): the wrapper learns the number of floorplan elements of the stack file. -/
theorem C79_count {e : Env K π} {ps : List (Point K)} {rs : List (Raw K (List (FlpEl K)))} {s : State K π} (hs : Serving e ps rs s)
    (hps : ps.length < 2 ^ 32) {m : Msg} (hm : countRequest = some m) {rep : Option Msg} {n : Next K π} (hr : Handles e s m rep n) :
    n = .run s ∧ ∃ r', rep = some r' ∧ ∀ r, Delivered r' r → count r = some (fileElements rs).length := by
  obtain ⟨ws, c1, ⟨c2, c3⟩, -⟩ := handles_answers (req := .total) hs hps (by simp [Request.Valid, Request.words, Request.type, IsWord])
    (buildMessage_some hm : Holds m 4 []) hr
  subst c2
  cases rep with
  | none => exact c1.elim
  | some r' =>
    refine ⟨c3, r', rfl, fun r hd => ?_⟩
    have := Net.extract_spec (hd _ _ c1) 0 _ rfl
    unfold count
    rw [this, hs.elements]

/-- **C79** (powers): a wrapper that knows the number of floorplan elements sends a request for exactly the lists of that many values, and the server never refuses
it: each element gets its value, in the order of the list, at the end of its queue, and the wrapper is told so. -/
theorem C79_powers {e : Env K π} {ps : List (Point K)} {rs : List (Raw K (List (FlpEl K)))} {s : State K π} (hs : Serving e ps rs s)
    (hps : ps.length < 2 ^ 32) {powers : List Nat} (hw : ∀ w ∈ powers, IsWord w) (hlen : powers.length + 3 < 2 ^ 30) {m : Msg}
    (hm : powersRequest (fileElements rs).length powers = some m) {rep : Option Msg} {n : Next K π} (hr : Handles e s m rep n) :
    powers.length = (fileElements rs).length ∧ (∃ r', rep = some r' ∧ ∀ r, Delivered r' r → powersAccepted r = true) ∧
      ∃ sim, n = .run { s with sim := sim } ∧ traces sim = List.zipWith (fun t w => t ++ [e.ofFloat w]) (traces s.sim) powers := by
  unfold powersRequest at hm
  split at hm
  · cases hm
  · rename_i hl
    rw [not_not] at hl
    rw [← hl] at hm
    have hv : (Request.insert powers).Valid := by
      refine ⟨?_, ?_, by simp [Request.type, IsWord], trivial⟩
      · intro w h
        simp only [Request.words, List.mem_cons] at h
        rcases h with rfl | h
        · unfold IsWord; norm_num at hlen; omega
        · exact hw w h
      · simp only [Request.words, List.length_cons]; norm_num at hlen; omega
    obtain ⟨ws, c1, c2, -⟩ := handles_answers hs hps hv (buildMessage_some hm) hr
    simp only [Answers] at c2
    rw [if_pos (by rw [hs.elements, hl])] at c2
    obtain ⟨rfl, sim, c3, c4, c5⟩ := c2
    refine ⟨hl, ?_, sim, c3, c5⟩
    cases rep with
    | none => exact c1.elim
    | some r' =>
      refine ⟨r', rfl, fun r hd => ?_⟩
      have := Net.extract_spec (hd _ _ c1) 0 _ rfl
      simp [powersAccepted, this]

/-- **C79** (wrong number of powers): any other list is refused before anything is sent. -/
theorem C79_wrong_number {n : Nat} {powers : List Nat} (h : powers.length ≠ n) : powersRequest n powers = none := by
  unfold powersRequest; rw [if_pos h]

/-- **C79** (simulation): one request simulates one slot, and the wrapper goes on exactly when the slot was completed. -/
theorem C79_simulate {e : Env K π} {ps : List (Point K)} {rs : List (Raw K (List (FlpEl K)))} {s : State K π} (hs : Serving e ps rs s)
    (hps : ps.length < 2 ^ 32) {m : Msg} (hm : simulateRequest = some m) {rep : Option Msg} {n : Next K π} (hr : Handles e s m rep n) :
    ∃ res sim r', SlotRun e.cfg s.sim res sim ∧ rep = some r' ∧ n = goesOn res { s with sim := sim } ∧
      ∀ r, Delivered r' r → (simulated r = true ↔ res = .slotDone) := by
  obtain ⟨ws, c1, ⟨res, sim, c2, c3, c4, c5⟩, -⟩ := handles_answers (req := .slot) hs hps (by simp [Request.Valid, Request.words, Request.type, IsWord])
    (buildMessage_some hm : Holds m 6 []) hr
  subst c3
  cases rep with
  | none => exact c1.elim
  | some r' =>
    refine ⟨res, sim, r', c2, rfl, c5, fun r hd => ?_⟩
    have := Net.extract_spec (hd _ _ c1) 0 _ rfl
    simp only [simulated, this]
    cases res <;> simp [simCode]

/-- **C79** (temperatures): for points of one value (a cell, a floorplan element, a coolant outlet) `getTemperature` adds one value per asked point, in the
order of their declaration: the value of its line in the output file. -/
theorem C79_temperatures {e : Env K π} {ps : List (Point K)} {rs : List (Raw K (List (FlpEl K)))} {s : State K π} (hs : Serving e ps rs s)
    (hps : ps.length < 2 ^ 32) {i t q : Nat} (hi : IsWord i) (ht : t = 1 ∨ t = 3 ∨ t = 6) (hq : IsWord q) {m : Msg}
    (hm : outputRequest i t q = some m) {rep : Option Msg} {n : Next K π} (hr : Handles e s m rep n) :
    ∃ r', rep = some r' ∧ ∀ r, Delivered r' r → ∃ vs, getTemperature r = some vs ∧ List.Forall₂ (SingleValue e s.sim) vs (asked ps i t q) := by
  have htw : IsWord t := by unfold IsWord; omega
  obtain ⟨r', rfl, h1⟩ := output_reply hs hps hi htw hq hm hr
  refine ⟨r', rfl, fun r hd => ?_⟩
  have h2 := hd _ _ h1
  -- each asked point has exactly one word
  have h3 : ∀ p ∈ asked ps i t q, ∃ w, answerOf e s.sim p = [w] ∧ SingleValue e s.sim w p := by
    intro p hp
    obtain ⟨hp1, hp2⟩ := List.mem_filter.mp hp
    rw [decide_eq_true_eq] at hp2
    have hsound := hs.sound p (List.mem_of_mem_filter hp1)
    obtain ⟨-, hso⟩ := hsound
    have hk := hp2.1
    unfold SingleValue answerOf recordOf render
    cases hkind : p.kind with
    | none => rw [hkind] at hso; exact hso.elim
    | tcell l r c => exact ⟨_, by simp, _, rfl, rfl⟩
    | tflp l els => rw [hkind] at hk; simp [kindCode] at hk; omega
    | tflpel l el =>
      rw [hkind] at hso
      simp only at hso ⊢
      cases hqq : p.quantity <;> simp_all [elStat]
    | tmap l => rw [hkind] at hk; simp [kindCode] at hk; omega
    | pmap l => rw [hkind] at hk; simp [kindCode] at hk; omega
    | tcoolant l ch =>
      rw [hkind] at hso
      simp only at hso ⊢
      cases hqq : p.quantity <;> simp_all [outletStat]
    | t3d => rw [hkind] at hk; simp [kindCode] at hk; omega
  have h4 : ∀ l : List (Point K), (∀ p ∈ l, ∃ w, answerOf e s.sim p = [w] ∧ SingleValue e s.sim w p) →
      (l.flatMap (answerOf e s.sim)).length = l.length ∧ List.Forall₂ (SingleValue e s.sim) (l.flatMap (answerOf e s.sim)) l := by
    intro l
    induction l with
    | nil => intro _; exact ⟨rfl, .nil⟩
    | cons p l ih =>
      intro h
      obtain ⟨w, e1, e2⟩ := h p (by simp)
      obtain ⟨e3, e4⟩ := ih fun p hp => h p (by simp [hp])
      rw [List.flatMap_cons, e1]
      exact ⟨by simp [e3], .cons e2 e4⟩
  obtain ⟨h5, h6⟩ := h4 _ h3
  refine ⟨(asked ps i t q).flatMap (answerOf e s.sim), ?_, h6⟩
  unfold getTemperature
  rw [Net.extract_spec h2 1 _ rfl]
  simp only
  rw [temperaturesFrom_eq h2 _ 2 (by simp only [List.length_cons, h5]; omega)]
  simp only [List.drop_succ_cons, List.drop_zero]
  rw [List.take_of_length_le (by omega)]

/-- A reply with one map of `R × C` cells. -/
theorem getMap_one {m : Msg} {a R C : Nat} {vals : List Nat} (h : Holds m 2 (a :: 1 :: R :: C :: vals)) (hlen : vals.length = R * C) (hR : 1 ≤ R) (hC : 1 ≤ C) :
    ∃ written x, getMap m = some [written] ∧ written.length = R ∧ (∀ row ∈ written, row.length = C) ∧ written.flatten = vals.drop 1 ++ [x] := by
  obtain ⟨N, hN⟩ : ∃ N, R * C = N + 1 := ⟨R * C - 1, by have := Nat.mul_pos hR hC; omega⟩
  obtain ⟨a1, a2, a3, a4⟩ := mapLoop_stream m C R (4, 0)
  refine ⟨(mapLoop m C R (4, 0)).1, (mapCell m (stream m N (4, 0)).2).2, ?_, a3, a4, ?_⟩
  · unfold getMap
    rw [Net.extract_spec h 1 _ rfl, Net.extract_spec h 2 _ rfl, Net.extract_spec h 3 _ rfl]
    rfl
  · have h3 := (stream_eq h N 4 0 (by rw [List.length_cons, List.length_cons, List.length_cons, List.length_cons, hlen, hN]; omega)).1
    have h4 : vals.drop 1 = (vals.drop 1).take N := by
      rw [List.take_of_length_le]
      rw [List.length_drop, hlen, hN]
      omega
    rw [a1, hN, stream_add, h3, h4]
    simp only [stream, List.drop_succ_cons]

theorem last32 {n : Nat} (h : 1 ≤ n) (h' : n < 2 ^ 32) : sub32 n 1 + 1 = n := by
  have hW : Dim.W = 4294967296 := by unfold Dim.W; rfl
  unfold sub32
  rw [hW]
  norm_num at h'
  omega

theorem shifted_ne {x a : Nat} : ∀ l : List Nat, l ++ [x] = a :: l → ∀ b ∈ l, b = a := by
  intro l
  induction l generalizing a with
  | nil => intro _ b hb; cases hb
  | cons c l ih =>
    intro h b hb
    simp only [List.cons_append, List.cons.injEq] at h
    obtain ⟨rfl, h⟩ := h
    rcases List.mem_cons.mp hb with rfl | hb
    · rfl
    · exact ih h b hb

/-! ### Where the wrapper does not do what its interface says -/

/-- **C79 is violated** (maps): include/IceWrapper.h promises a file with "values that correspond to a thermal map" (or power map). The index is incremented
before each extraction, so the word of the first cell is skipped: with one map of `nRows × nCols` cells (at least one), the file has the right numbers of rows
and columns but each cell holds the value of the next cell, and the last one a value that belongs to no cell. Unless all the cells have the same value, the
file is wrong. -/
theorem C79_map_violated {e : Env K π} {ps : List (Point K)} {rs : List (Raw K (List (FlpEl K)))} {s : State K π} (hs : Serving e ps rs s)
    (hps : ps.length < 2 ^ 32) {t : Nat} (ht : t = 4 ∨ t = 5) {p : Point K} (hp : asked ps 2 t 0 = [p])
    (hrow : 1 ≤ e.cfg.d.nRows ∧ e.cfg.d.nRows < 2 ^ 32) (hcol : 1 ≤ e.cfg.d.nCols ∧ e.cfg.d.nCols < 2 ^ 32) {m : Msg} (hm : mapRequest t = some m) {rep : Option Msg} {n : Next K π} (hr : Handles e s m rep n) :
    ∃ rows, recordOf e.cfg s.sim (simulatedTime e.cfg.an s.sim) p = some (.map rows) ∧ rows.flatten.length = e.cfg.d.nRows * e.cfg.d.nCols ∧
      ∃ r', rep = some r' ∧ ∀ r, Delivered r' r → ∃ written x, getMap r = some [written] ∧ written.length = e.cfg.d.nRows ∧
        (∀ row ∈ written, row.length = e.cfg.d.nCols) ∧ written.flatten = (rows.flatten.map e.toFloat).drop 1 ++ [x] ∧
        ((∃ v ∈ rows.flatten, ∃ v' ∈ rows.flatten, e.toFloat v ≠ e.toFloat v') → written ≠ rows.map fun row => row.map e.toFloat) := by
  have htw : IsWord t := by unfold IsWord; omega
  obtain ⟨r', rfl, h1⟩ := output_reply (i := 2) (q := 0) hs hps (by simp [IsWord]) htw (by simp [IsWord]) hm hr
  rw [hp] at h1
  have hmem : p ∈ asked ps 2 t 0 := by rw [hp]; simp
  obtain ⟨hp1, hp2⟩ := List.mem_filter.mp hmem
  rw [decide_eq_true_eq] at hp2
  have hk := hp2.1
  have hex : ∃ x l, recordOf e.cfg s.sim (simulatedTime e.cfg.an s.sim) p = some (.map (mapRows e.cfg.d l x)) := by
    unfold recordOf render
    cases hkind : p.kind <;> rw [hkind] at hk <;> simp only [kindCode] at hk <;> first | omega | exact ⟨_, _, rfl⟩
  obtain ⟨x, l, hrec⟩ := hex
  have hlen : (mapRows e.cfg.d l x).flatten.length = e.cfg.d.nRows * e.cfg.d.nCols := by
    have h2 := congrArg List.length (flatten_range (fun i => (fromLayer e.cfg.d l x).getD i 0) (lastColumn e.cfg.d + 1) (lastRow e.cfg.d + 1))
    have hl1 : lastRow e.cfg.d + 1 = e.cfg.d.nRows := by unfold lastRow; exact last32 hrow.1 hrow.2
    have hl2 : lastColumn e.cfg.d + 1 = e.cfg.d.nCols := by unfold lastColumn; exact last32 hcol.1 hcol.2
    unfold mapRows
    rw [h2, List.length_map, List.length_range, hl1, hl2]
  refine ⟨_, hrec, hlen, r', rfl, fun r hd => ?_⟩
  have h2 := hd _ _ h1
  have hans : answerOf e s.sim p = e.cfg.d.nRows :: e.cfg.d.nCols :: (mapRows e.cfg.d l x).flatten.map e.toFloat := by
    unfold answerOf; rw [hrec]
  rw [List.flatMap_cons, hans, List.flatMap_nil, List.append_nil, List.length_singleton] at h2
  obtain ⟨written, y, b1, b2, b3, hflat⟩ := getMap_one h2 (by rw [List.length_map, hlen]) hrow.1 hcol.1
  refine ⟨written, y, b1, b2, b3, hflat, ?_⟩
  · rintro ⟨v, hv, v', hv', hne⟩ heq
    rw [heq, ← List.map_flatten] at hflat
    generalize (mapRows e.cfg.d l x).flatten = vals at hflat hv hv'
    cases vals with
    | nil => cases hv
    | cons a tl =>
      simp only [List.map_cons, List.drop_succ_cons, List.drop_zero] at hflat
      have hall := shifted_ne _ hflat.symm
      have h5 : ∀ u ∈ a :: tl, e.toFloat u = e.toFloat a := by
        intro u hu
        rcases List.mem_cons.mp hu with rfl | hu
        · rfl
        · exact hall _ (List.mem_map_of_mem hu)
      exact hne ((h5 v hv).trans (h5 v' hv').symm)

/-- **C79 is violated** (floorplan temperatures): for a floorplan point, `getTemperature` returns a single number, the length of the name of the output file of the
point, and none of the temperatures of its elements. -/
theorem C79_floorplan_violated {e : Env K π} {ps : List (Point K)} {rs : List (Raw K (List (FlpEl K)))} {s : State K π} (hs : Serving e ps rs s)
    (hps : ps.length < 2 ^ 32) {i q : Nat} (hi : IsWord i) (hq : IsWord q) {p : Point K} (hp : asked ps i 2 q = [p]) {m : Msg}
    (hm : outputRequest i 2 q = some m) {rep : Option Msg} {n : Next K π} (hr : Handles e s m rep n) :
    ∃ r', rep = some r' ∧ ∀ r, Delivered r' r → getTemperature r = some [(bytesOf p.file).length] := by
  obtain ⟨r', rfl, h1⟩ := output_reply hs hps hi (by simp [IsWord]) hq hm hr
  rw [hp] at h1
  refine ⟨r', rfl, fun r hd => ?_⟩
  have h2 := hd _ _ h1
  have hmem : p ∈ asked ps i 2 q := by rw [hp]; simp
  obtain ⟨hp1, hp2⟩ := List.mem_filter.mp hmem
  rw [decide_eq_true_eq] at hp2
  have hk := hp2.1
  have hans : ∃ rest, answerOf e s.sim p = (bytesOf p.file).length :: rest := by
    unfold answerOf recordOf render
    cases hkind : p.kind <;> rw [hkind] at hk <;> simp only [kindCode] at hk <;> first | omega | exact ⟨_, rfl⟩
  obtain ⟨rest, hans⟩ := hans
  rw [List.flatMap_cons, hans, List.flatMap_nil, List.append_nil, List.length_singleton] at h2
  unfold getTemperature
  rw [Net.extract_spec h2 1 _ rfl]
  simp only
  rw [temperaturesFrom_eq h2 _ 2 (by simp)]
  rfl

/-- **C79 is violated** (synchronisation): the wrapper announces that it stops when the time of the server is more than a nanosecond away from the time of SystemC. The time
it reads is below `2^-1042` seconds whatever the server sends, and the check asks for a time that is both too late and too early: it never stops. -/
theorem C79_time_violated {r : Msg} {t : Nat} {ws : List Nat} (h : Holds r t ws) (hw : ∀ w ∈ ws, IsWord w) (hne : ws ≠ []) :
    (timeRead r : K) < 1 / 2 ^ 1042 ∧ ∀ (time now ns : K), 0 < ns → ¬ OutOfSync time now ns := by
  constructor
  · obtain ⟨w, ws', rfl⟩ := List.exists_cons_of_ne_nil hne
    unfold timeRead
    rw [Net.extract_spec h 0 _ rfl]
    simp only
    have h1 : w < 2 ^ 32 := by have := hw w (by simp); unfold IsWord at this; norm_num; omega
    have h2 : (w : K) < 2 ^ 32 := by exact_mod_cast h1
    rw [div_lt_div_iff₀ (by positivity) (by positivity)]
    rw [show (1074 : Nat) = 32 + 1042 from rfl, pow_add, one_mul]
    exact mul_lt_mul_of_pos_right h2 (by positivity)
  · rintro time now ns hns ⟨h1, h2⟩
    have := le_trans h1 h2
    linarith

/-- **C79 is violated** (lost connection): if the server goes away before it answers, `sendPowerValues` reports that the values were accepted, and
`getTemperature` and `getMap` report no result, without an error. Only `simulate` notices. -/
theorem C79_lost_connection_violated (sched : List ReadEv) : ∃ r, receive sched [] Net.init = some r ∧ powersAccepted r.msg = true ∧
    simulated r.msg = false ∧ getTemperature r.msg = some [] ∧ getMap r.msg = some [] := by
  obtain ⟨r, h1, h2, -⟩ := receive_closed sched
  refine ⟨r, h1, ?_⟩
  rw [h2, Net.init_eq]
  generalize hg : List.replicate 254 0 = l
  have hl : l[0]? = some 0 ∧ l[1]? = some 0 ∧ l[2]? = some 0 ∧ l[3]? = some 0 := by subst hg; decide
  obtain ⟨l0, l1, l2, l3⟩ := hl
  simp [powersAccepted, simulated, getTemperature, getMap, extract, temperaturesFrom, mapsLoop, l0, l1, l2, l3]

/-! ### The theorems apply -/

theorem demo_serving : Serving demoEnv Srv.demoPoints (demoRaw [1, 2] [4]) demoState := demo_launched.serving (by decide +kernel)

theorem delivered_refl (m : Msg) : Delivered m m := fun _ _ h => h

/-- Non-vacuity: the wrapper asks for the number of elements of the demonstration stack and learns that there are two. -/
example : ∃ m r n, countRequest = some m ∧ Handles demoEnv demoState m (some r) n ∧ count r = some 2 := by
  obtain ⟨m, h, hm⟩ := Net.buildMessage_holds 4 [] (by simp)
  obtain ⟨rep, n, h1⟩ := handles_total (req := .total) demo_serving (by decide) demo_fits (by simp [Request.Valid, Request.words, Request.type, IsWord]) hm
  obtain ⟨-, r, rfl, h2⟩ := C79_count demo_serving (by decide) h h1
  have h3 : (fileElements (demoRaw [1, 2] [4])).length = 2 := by decide +kernel
  exact ⟨m, r, n, h, h1, by rw [h2 r (delivered_refl r), h3]⟩

/-- Non-vacuity: two powers are accepted and reach the queues of their elements. -/
example : ∃ m r sim, powersRequest 2 [8, 9] = some m ∧ Handles demoEnv demoState m (some r) (.run { demoState with sim := sim }) ∧ powersAccepted r = true ∧
    traces sim = [[1, 2, 8], [4, 9]] := by
  obtain ⟨m, h, hm⟩ := Net.buildMessage_holds 5 [2, 8, 9] (by simp)
  have hv : (Request.insert [8, 9]).Valid := by simp [Request.Valid, Request.words, Request.type, IsWord]
  obtain ⟨rep, n, h1⟩ := handles_total (req := .insert [8, 9]) demo_serving (by decide) demo_fits hv hm
  have h3 : (fileElements (demoRaw [1, 2] [4])).length = 2 := by decide +kernel
  have h' : powersRequest (fileElements (demoRaw [1, 2] [4])).length [8, 9] = some m := by rw [h3]; exact h
  obtain ⟨-, ⟨r, rfl, h2⟩, sim, rfl, h4⟩ := C79_powers demo_serving (by decide) (by simp [IsWord]) (by simp) h' h1
  refine ⟨m, r, sim, h, h1, h2 r (delivered_refl r), ?_⟩
  rw [h4]
  simp [traces, demoState, demo_elements, demoEnv, demoEl]

/-- Non-vacuity: a slot is simulated, with the answer of the server. -/
example : ∃ m r n, simulateRequest = some m ∧ Handles demoEnv demoState m (some r) n := by
  obtain ⟨m, h, hm⟩ := Net.buildMessage_holds 6 [] (by simp)
  obtain ⟨rep, n, h1⟩ := handles_total (req := .slot) demo_serving (by decide) demo_fits (by simp [Request.Valid, Request.words, Request.type, IsWord]) hm
  obtain ⟨res, sim, r, -, rfl, -⟩ := C79_simulate demo_serving (by decide) h h1
  exact ⟨m, r, n, h, h1⟩

/-- Non-vacuity: the final cell point is answered with one temperature. -/
example : ∃ m r n v, outputRequest 1 1 0 = some m ∧ Handles demoEnv demoState m (some r) n ∧ getTemperature r = some [v] := by
  obtain ⟨m, h, hm⟩ := Net.buildMessage_holds 2 [1, 1, 0] (by simp)
  obtain ⟨rep, n, h1⟩ := handles_total (req := .output 1 1 0) demo_serving (by decide) demo_fits
    (by simp [Request.Valid, Request.words, Request.type, IsWord]) hm
  obtain ⟨r, rfl, h2⟩ := C79_temperatures demo_serving (by decide) (by simp [IsWord]) (Or.inl rfl) (by simp [IsWord]) h h1
  obtain ⟨vs, h3, h4⟩ := h2 r (delivered_refl r)
  have h5 : (asked Srv.demoPoints 1 1 0).length = 1 := by decide +kernel
  have h6 := h4.length_eq
  rw [h5] at h6
  obtain ⟨v, rfl⟩ := List.length_eq_one_iff.mp h6
  exact ⟨m, r, n, v, h, h1, h3⟩

/-- Non-vacuity: the map of the demonstration is written, shifted by one cell. -/
example : ∃ m r n written, mapRequest 4 = some m ∧ Handles demoEnv demoState m (some r) n ∧ getMap r = some [written] ∧
    written.length = demoEnv.cfg.d.nRows := by
  obtain ⟨m, h, hm⟩ := Net.buildMessage_holds 2 [2, 4, 0] (by simp)
  obtain ⟨rep, n, h1⟩ := handles_total (req := .output 2 4 0) demo_serving (by decide) demo_fits
    (by simp [Request.Valid, Request.words, Request.type, IsWord]) hm
  obtain ⟨rows, -, -, r, rfl, h2⟩ := C79_map_violated (p := ⟨.slot, .tmap 1, .none, "map.txt"⟩) demo_serving (by decide) (Or.inl rfl) rfl (by decide +kernel) (by decide +kernel) h h1
  obtain ⟨w, x, h3, h4, -⟩ := h2 r (delivered_refl r)
  exact ⟨m, r, n, w, h, h1, h3, h4⟩

/-- Non-vacuity: the slot floorplan point of the demonstration has the file `max.txt`; the wrapper returns the temperature 7 (as a word). -/
example : ∃ m r n, outputRequest 2 2 2 = some m ∧ Handles demoEnv demoState m (some r) n ∧ getTemperature r = some [7] := by
  obtain ⟨m, h, hm⟩ := Net.buildMessage_holds 2 [2, 2, 2] (by simp)
  obtain ⟨rep, n, h1⟩ := handles_total (req := .output 2 2 2) demo_serving (by decide) demo_fits
    (by simp [Request.Valid, Request.words, Request.type, IsWord]) hm
  obtain ⟨r, rfl, h2⟩ := C79_floorplan_violated (p := ⟨.slot, .tflp 0 [demoEl "a" [], demoEl "b" []], .maximum, "max.txt"⟩) demo_serving (by decide)
    (by simp [IsWord]) (by simp [IsWord]) rfl h h1
  refine ⟨m, r, n, h, h1, ?_⟩
  rw [h2 r (delivered_refl r)]
  have : (bytesOf "max.txt").length = 7 := by decide +kernel
  rw [this]

/-- Non-vacuity: a reply cut into pieces by the socket. -/
example : ∃ rep r, buildMessage 6 [4] = some rep ∧ receive (.eintr :: List.replicate 30 (.data 1)) (Net.wire 6 [4] ++ [1, 2]) Net.init = some r ∧
    simulated r.msg = true := by
  obtain ⟨rep, h, hr⟩ := Net.buildMessage_holds 6 [4] (by simp)
  have hs : Net.send [.wrote 3, .eintr, .wrote 0, .wrote 100] rep = some (.ok, Net.wire 6 [4]) := by
    rw [Net.send_holds hr]; decide +kernel
  obtain ⟨r, h1, -, -, h2⟩ := C79_delivered hr (by simp [IsWord]) (by simp [IsWord]) (by simp) _ _ [1, 2] hs (.eintr :: List.replicate 30 (.data 1))
    (by decide +kernel) (by decide +kernel)
  refine ⟨rep, r, h, h1, ?_⟩
  simp [simulated, Net.extract_spec (h2 _ _ hr) 0 _ rfl]

/-- Non-vacuity: a reply with the time `1.0f`, read as about `5e-315` seconds. -/
example : ∃ r : Msg, Holds r 2 [1065353216, 0] ∧ (timeRead r : ℚ) < 1 / 2 ^ 1042 := by
  obtain ⟨r, -, hr⟩ := Net.buildMessage_holds 2 [1065353216, 0] (by simp)
  exact ⟨r, hr, (C79_time_violated hr (by simp [IsWord]) (by simp)).1⟩

end Verif.Wrap
