import Verif.Lemmas.Net
import Verif.Model.Reply
import Mathlib.Data.List.Forall2
/-!
Properties C04–C07 (messages, sockets, byte strings).
-/
namespace Verif.Net

theorem buildMessage_holds (t : Nat) (ws : List Nat) (h : ws.length + 2 < 2147483648) :
    ∃ m, buildMessage t ws = some m ∧ Holds m t ws := by
  obtain ⟨m0, h0, h1⟩ := buildHead_init t
  obtain ⟨m, h2, h3⟩ := insertWords_spec ws h1 (by simpa using h)
  exact ⟨m, by simp [buildMessage, h0, h2], by simpa using h3⟩

/-- **C04** Start a message of type `t`, insert the words `ws`: nothing goes wrong, the length word is n+2, the type word
is `t`, and extracting index i gives the i-th inserted word, for every n below 2^31-2 (that is 8 GiB of words). -/
theorem C04_words_read_back (t : Nat) (ws : List Nat) (h : ws.length + 2 < 2147483648) :
    ∃ m, buildMessage t ws = some m ∧ lengthWord m = some (ws.length + 2) ∧ typeWord m = some t ∧
      ∀ i (hi : i < ws.length), extract m i = .ok ws[i] := by
  obtain ⟨m, h1, h2⟩ := buildMessage_holds t ws h
  exact ⟨m, h1, h2.lengthWord, h2.typeWord, fun i hi => extract_spec h2 i _ (List.getElem?_eq_getElem hi)⟩

/-- A message that had to grow twice. -/
example : ∃ m, buildMessage 5 (List.range 600) = some m ∧ lengthWord m = some 602 ∧ typeWord m = some 5 ∧
    extract m 599 = .ok 599 := by
  obtain ⟨m, h1, h2, h3, h4⟩ := C04_words_read_back 5 (List.range 600) (by simp)
  refine ⟨m, h1, by simpa using h2, h3, ?_⟩
  rw [h4 599 (by simp)]; simp

/-- **C05 is violated**: a message with no content at all answers an extraction of word 0 (and of any word below 254) with
success and a value nobody inserted. -/
theorem C05_extract_past_end_violated : ∃ m, buildMessage 7 [] = some m ∧ lengthWord m = some 2 ∧
    ∀ i, i < 254 → extract m i = .ok 0 := by
  refine ⟨{ mem := 2 :: 7 :: List.replicate 254 0, maxLen := 256 }, ?_, ?_, ?_⟩
  · simp only [buildMessage, init_eq, buildHead]
    generalize List.replicate 254 0 = r
    simp [insertWords]
  · generalize List.replicate 254 0 = r
    simp [lengthWord]
  · intro i hi
    unfold extract
    rw [if_neg (by show ¬ 254 ≤ i; omega), show 2 + i = (i + 1) + 1 by omega]
    simp only [List.getElem?_cons_succ]
    rw [List.getElem?_replicate, if_pos hi]

/-- **C05 (what holds)** Extraction never reads outside the message's memory: it fails exactly for indices beyond the
allocated block, and otherwise delivers the word stored there. Missing with respect to C05: indices between the
number of content words and the allocated size are answered with stale or zero words. -/
theorem C05_extract_in_memory_partial (m : Msg) (t : Nat) (ws : List Nat) (h : Holds m t ws) (i : Nat) :
    extract m i ≠ .ub ∧ (extract m i = .failure ↔ m.maxLen - 2 ≤ i) := by
  have hlo := h.lo
  have hhi := h.hi
  have hlen := h.len
  unfold extract
  by_cases hi : m.maxLen - 2 ≤ i
  · simp [hi]
  · have : 2 + i < m.mem.length := by omega
    simp [hi, List.getElem?_eq_getElem this]

/-- Every message built by the API meets the hypothesis. -/
example : ∃ m, buildMessage 3 [1, 2, 3] = some m ∧ Holds m 3 [1, 2, 3] := buildMessage_holds 3 [1, 2, 3] (by simp)

/-- The bytes a message must put on the wire: its length word, its type word, its content, 4 bytes per word. -/
def wire (t : Nat) (ws : List Nat) : List Nat := toBytes ((ws.length + 2) :: t :: ws)

theorem send_holds {m t ws} (h : Holds m t ws) (sched : List WriteEv) :
    send sched m = some (sendLoop sched (wire t ws)) := by
  unfold send
  rw [h.lengthWord]
  simp only
  rw [if_pos (by rw [h.len]; exact h.fits)]
  obtain ⟨rest, hr⟩ := h.cont
  have : m.mem.take (ws.length + 2) = (ws.length + 2) :: t :: ws := by
    rw [hr, List.take_succ_cons, List.take_succ_cons, List.take_left]
  rw [this]; rfl

/-- **C06, sender** However `write` splits the data or is interrupted, what is on the wire is always a prefix of the
message's bytes, it is all of them when the call succeeds, and the call fails only if some `write` failed. -/
theorem C06_send (m : Msg) (t : Nat) (ws : List Nat) (h : Holds m t ws) (sched : List WriteEv) :
    ∃ st sent, send sched m = some (st, sent) ∧ (∃ k, sent = (wire t ws).take k) ∧ (st = .ok → sent = wire t ws) ∧
      ((∀ e ∈ sched, e ≠ .err) → st ≠ .failure) := by
  refine ⟨_, _, send_holds h sched, ?_⟩
  exact sendLoop_spec sched (wire t ws)

/-- Memory of a message object that may receive: what `network_message_init` gives, or any used message. -/
structure Ready (m : Msg) : Prop where
  len : m.mem.length = m.maxLen
  lo  : 256 ≤ m.maxLen
  hi  : m.maxLen < W

theorem ready_init : Ready init := by
  rw [init_eq]
  exact ⟨by simp only [List.length_cons, List.length_replicate], Nat.le_refl _, by unfold W; simp⟩

theorem wire_length (t : Nat) (ws : List Nat) : (wire t ws).length = 4 * (ws.length + 2) := by
  simp [wire, toBytes_length]

theorem increase_ready {m : Msg} (h : Ready m) (n : Nat) (hn : m.maxLen ≤ n) (hW : n < W) :
    ∃ m', increase m n = some m' ∧ Ready m' ∧ n ≤ m'.maxLen := by
  refine ⟨_, by unfold increase; rw [if_pos ⟨hn, by rw [h.len]; exact Nat.le_refl _⟩], ⟨?_, ?_, hW⟩, Nat.le_refl _⟩
  · simp [h.len]; omega
  · have := h.lo; simp; omega

/-- The part of `receive` that follows the length word. -/
theorem receive_after_length (sched : List ReadEv) (a b c d : Nat) (stream rest1 : List Nat) (sched1 : List ReadEv) (m : Msg)
    (h1 : readLoop sched 4 stream = ⟨.ok, [a, b, c, d], rest1, sched1⟩) (hl : bytesWord a b c d ≠ 0) (hlW : bytesWord a b c d < W)
    (hm : Ready m) :
    ∃ old : List Nat, ∃ maxLen, old.length + 1 = maxLen ∧ bytesWord a b c d ≤ maxLen ∧ 256 ≤ maxLen ∧ maxLen < W ∧
      receive sched stream m =
        (let r2 := readLoop sched1 ((bytesWord a b c d - 1) * 4 % W) rest1
         some ⟨r2.status, { mem := bytesWord a b c d :: ofBytes (r2.got ++ (toBytes old).drop r2.got.length),
                            maxLen := maxLen }, r2.rest, r2.sched⟩) := by
  have key : ∀ m1 : Msg, Ready m1 → bytesWord a b c d ≤ m1.maxLen →
      ∀ (n : Nat), n ≤ (bytesWord a b c d - 1) * 4 →
      ¬ (m1.mem.length = 0 ∨ (toBytes (m1.mem.drop 1)).length < (readLoop sched1 n rest1).got.length) := by
    intro m1 h hle n hn hor
    have hlo := h.lo
    have hlen := h.len
    have hgot := (readLoop_spec sched1 n rest1).2.1
    rw [toBytes_length, List.length_drop] at hor
    have h4 : 4 * (m1.mem.length - 1) = (m1.maxLen - 1) * 4 := by omega
    omega
  have hmod : (bytesWord a b c d - 1) * 4 % W ≤ (bytesWord a b c d - 1) * 4 := Nat.mod_le _ _
  by_cases hg : m.maxLen < bytesWord a b c d
  · obtain ⟨m1, e1, e2, e3⟩ := increase_ready hm _ (Nat.le_of_lt hg) hlW
    refine ⟨m1.mem.drop 1, m1.maxLen, by rw [List.length_drop, e2.len]; have := e2.lo; omega, e3, e2.lo, e2.hi, ?_⟩
    unfold receive
    rw [h1]
    simp only
    rw [if_neg hl, if_pos hg, e1]
    simp only
    rw [if_neg (key m1 e2 e3 _ hmod)]
  · refine ⟨m.mem.drop 1, m.maxLen, by rw [List.length_drop, hm.len]; have := hm.lo; omega, by omega, hm.lo, hm.hi, ?_⟩
    unfold receive
    rw [h1]
    simp only
    rw [if_neg hl, if_neg hg]
    simp only
    rw [if_neg (key m hm (by omega) _ hmod)]

/-- **C06, receiver** Let the stream start with the bytes of a message (type `t`, words `ws`, shorter than 2^30 words),
followed by anything. For every way `read` splits and interrupts the transfer without reporting an error, `receive`
does not touch foreign memory and does not fail; if it returns, the message object holds exactly that message and the
stream is positioned right after it; it can only still be waiting if fewer than one `read` per byte has returned. -/
theorem C06_receive (t : Nat) (ws tail : List Nat) (ht : IsWord t) (hws : ∀ w ∈ ws, IsWord w)
    (hlen : ws.length + 2 < 1073741824) (m : Msg) (hm : Ready m) (sched : List ReadEv) (hs : ∀ e ∈ sched, e ≠ .err) :
    ∃ r, receive sched (wire t ws ++ tail) m = some r ∧
      (r.status = .ok ∧ Holds r.msg t ws ∧ r.rest = tail ∧ (∀ e ∈ r.sched, e ∈ sched) ∧
          dataCount sched ≤ dataCount r.sched + 4 * (ws.length + 2) ∨
       r.status = .blocked ∧ dataCount sched < 4 * (ws.length + 2)) := by
  have hwl := wire_length t ws
  have hwire : wire t ws = wordBytes (ws.length + 2) ++ toBytes (t :: ws) := rfl
  obtain ⟨a1, a2, a3, a4, a5, a6, a7⟩ := readLoop_spec sched 4 (wire t ws ++ tail)
  have hnf := a4 hs (by simp; omega)
  cases hst : (readLoop sched 4 (wire t ws ++ tail)).status with
  | failure => exact absurd hst hnf
  | blocked =>
    refine ⟨⟨.blocked, m, (readLoop sched 4 (wire t ws ++ tail)).rest, (readLoop sched 4 (wire t ws ++ tail)).sched⟩, ?_,
      Or.inr ⟨rfl, by have := (a5 hst).1; omega⟩⟩
    unfold receive
    simp [hst]
  | ok =>
    have hg4 := a3 hst
    have hgot : (readLoop sched 4 (wire t ws ++ tail)).got = wordBytes (ws.length + 2) ∧
        (readLoop sched 4 (wire t ws ++ tail)).rest = toBytes (t :: ws) ++ tail := by
      rw [hwire, List.append_assoc] at a1 hg4 ⊢
      exact List.append_inj a1 (by rw [hg4]; rfl)
    have hbw : bytesWord ((ws.length + 2) % 256) ((ws.length + 2) / 256 % 256) ((ws.length + 2) / 65536 % 256)
        ((ws.length + 2) / 16777216 % 256) = ws.length + 2 := bytesWord_wordBytes _ (by omega)
    have hr1 : readLoop sched 4 (wire t ws ++ tail) =
        ⟨.ok, [(ws.length + 2) % 256, (ws.length + 2) / 256 % 256, (ws.length + 2) / 65536 % 256,
          (ws.length + 2) / 16777216 % 256], toBytes (t :: ws) ++ tail,
          (readLoop sched 4 (wire t ws ++ tail)).sched⟩ := by
      exact ReadRes.eta_of hst hgot.1 hgot.2
    obtain ⟨old, maxLen, b1, b2, b3, b4, b5⟩ := receive_after_length sched _ _ _ _ _ _ _ m hr1
      (by rw [hbw]; omega) (by rw [hbw]; unfold W; omega) hm
    rw [hbw] at b2 b5
    have hmod : (ws.length + 2 - 1) * 4 % W = 4 * (ws.length + 1) := by
      rw [Nat.mod_eq_of_lt (by unfold W; omega)]; omega
    rw [hmod] at b5
    generalize (readLoop sched 4 (wire t ws ++ tail)).sched = sched1 at *
    obtain ⟨c1, c2, c3, c4, c5, c6, c7⟩ := readLoop_spec sched1 (4 * (ws.length + 1)) (toBytes (t :: ws) ++ tail)
    have hnf2 := c4 (fun e he => hs e (a6 e he)) (by rw [List.length_append, toBytes_length]; simp)
    have hd := a7 hst
    refine ⟨_, b5, ?_⟩
    simp only
    cases hst2 : (readLoop sched1 (4 * (ws.length + 1)) (toBytes (t :: ws) ++ tail)).status with
    | failure => exact absurd hst2 hnf2
    | blocked => exact Or.inr ⟨rfl, by have := (c5 hst2).1; omega⟩
    | ok =>
      left
      have hg := c3 hst2
      have hgot2 := List.append_inj c1 (by rw [hg, toBytes_length]; simp)
      have hd2 := c7 hst2
      refine ⟨rfl, ⟨?_, b3, b4, ?_⟩, hgot2.2, fun e he => a6 e (c6 e he), by omega⟩
      · simp only
        rw [hgot2.1, List.length_cons, ofBytes_length, List.length_append, List.length_drop]
        simp only [toBytes_length, List.length_cons]
        omega
      · simp only
        rw [hgot2.1]
        have hsplit : (toBytes old).drop (toBytes (t :: ws)).length = toBytes (old.drop (ws.length + 1)) := by
          rw [toBytes_length]
          have e : toBytes old = toBytes (old.take (ws.length + 1)) ++ toBytes (old.drop (ws.length + 1)) := by
            rw [← toBytes_append, List.take_append_drop]
          rw [e, List.drop_left']
          rw [toBytes_length, List.length_take]
          simp only [List.length_cons]
          omega
        rw [hsplit]
        refine ⟨ofBytes (toBytes (old.drop (ws.length + 1))), ?_⟩
        have aux : ∀ (xs : List Nat) (l : List Nat), (∀ w ∈ xs, IsWord w) → ofBytes (toBytes xs ++ l) = xs ++ ofBytes l := by
          intro xs l hx
          induction xs with
          | nil => rfl
          | cons w xs ih =>
            simp only [toBytes, List.append_assoc]
            rw [ofBytes_wordBytes w (hx w (by simp)), ih (fun v hv => hx v (by simp [hv]))]; rfl
        rw [aux (t :: ws) _ (by simpa using ⟨ht, hws⟩)]
        rfl

/-- **C06** End to end: whatever the sender's and receiver's call schedules, once the sender reports success and the
receiver is given enough `read` calls, the receiver holds the sender's message. -/
theorem C06_end_to_end (m : Msg) (t : Nat) (ws : List Nat) (h : Holds m t ws) (ht : IsWord t) (hws : ∀ w ∈ ws, IsWord w)
    (hlen : ws.length + 2 < 1073741824) (wsched : List WriteEv) (sent tail : List Nat)
    (hsend : send wsched m = some (.ok, sent)) (rsched : List ReadEv) (hs : ∀ e ∈ rsched, e ≠ .err)
    (hen : 4 * (ws.length + 2) ≤ dataCount rsched) :
    ∃ r, receive rsched (sent ++ tail) init = some r ∧ r.status = .ok ∧ Holds r.msg t ws ∧ r.rest = tail := by
  obtain ⟨st, s', e1, _, e3, _⟩ := C06_send m t ws h wsched
  rw [hsend] at e1
  cases e1
  rw [e3 rfl]
  obtain ⟨r, f1, f2⟩ := C06_receive t ws tail ht hws hlen init ready_init rsched hs
  refine ⟨r, f1, ?_⟩
  rcases f2 with f2 | f2
  · exact ⟨f2.1, f2.2.1, f2.2.2.1⟩
  · omega

/-- Receiving `n` messages one after the other, each into a fresh message object (as server and client do). -/
def receiveMany : Nat → List ReadEv → List Nat → Option (Status × List Msg × List Nat)
  | 0,     _,     st => some (.ok, [], st)
  | n + 1, sched, st =>
    match receive sched st init with
    | none   => none
    | some r =>
      match r.status with
      | .ok => match receiveMany n r.sched r.rest with
        | none => none
        | some (s, ms, rest) => some (s, r.msg :: ms, rest)
      | s => some (s, [], r.rest)

/-- **C06** A conversation: the concatenated bytes of any number of messages are received as those messages, in order. -/
theorem C06_conversation (msgs : List (Nat × List Nat)) : ∀ (tail : List Nat) (sched : List ReadEv),
    (∀ p ∈ msgs, IsWord p.1 ∧ (∀ w ∈ p.2, IsWord w) ∧ p.2.length + 2 < 1073741824) → (∀ e ∈ sched, e ≠ .err) →
    ((msgs.flatMap (fun p => wire p.1 p.2)).length ≤ dataCount sched) →
    ∃ ms, receiveMany msgs.length sched (msgs.flatMap (fun p => wire p.1 p.2) ++ tail) = some (.ok, ms, tail) ∧
      List.Forall₂ (fun m p => Holds m p.1 p.2) ms msgs := by
  induction msgs with
  | nil => intro tail sched _ _ _; exact ⟨[], rfl, .nil⟩
  | cons p msgs ih =>
    intro tail sched hp hs hd
    obtain ⟨q1, q2, q3⟩ := hp p (by simp)
    simp only [List.flatMap_cons, List.length_append, wire_length] at hd
    obtain ⟨r, f1, f2⟩ := C06_receive p.1 p.2 (msgs.flatMap (fun p => wire p.1 p.2) ++ tail) q1 q2 q3 init ready_init sched hs
    rcases f2 with ⟨g1, g2, g3, g4, g5⟩ | f2
    · obtain ⟨ms, k1, k2⟩ := ih tail r.sched (fun x hx => hp x (by simp [hx])) (fun e he => hs e (g4 e he)) (by omega)
      refine ⟨r.msg :: ms, ?_, .cons g2 k2⟩
      simp only [List.flatMap_cons, List.length_cons, List.append_assoc, receiveMany, f1, g1, g3, k1]
    · omega

/-- **C06** A stream that ends before the message is complete never yields success. -/
theorem C06_truncated_fails (t : Nat) (ws : List Nat) (hlen : ws.length + 2 < 1073741824) (k : Nat)
    (hk : k < (wire t ws).length) (m : Msg) (hm : Ready m) (sched : List ReadEv) :
    ∃ r, receive sched ((wire t ws).take k) m = some r ∧ r.status ≠ .ok := by
  have hwl := wire_length t ws
  obtain ⟨a1, a2, a3, a4, a5, a6, a7⟩ := readLoop_spec sched 4 ((wire t ws).take k)
  cases hst : (readLoop sched 4 ((wire t ws).take k)).status with
  | failure => exact ⟨_, by unfold receive; simp [hst]; rfl, by simp⟩
  | blocked => exact ⟨_, by unfold receive; simp [hst]; rfl, by simp⟩
  | ok =>
    have hg4 := a3 hst
    have hk4 : 4 ≤ k := by
      have := congrArg List.length a1
      rw [List.length_append, hg4, List.length_take] at this; omega
    have hwire : (wire t ws).take k = wordBytes (ws.length + 2) ++ (toBytes (t :: ws)).take (k - 4) := by
      show (wordBytes (ws.length + 2) ++ toBytes (t :: ws)).take k = _
      rw [List.take_append, wordBytes_length, List.take_of_length_le (by rw [wordBytes_length]; exact hk4)]
    rw [hwire] at a1 hg4 hst ⊢
    have hgot := List.append_inj a1 (by rw [hg4]; rfl)
    have hbw : bytesWord ((ws.length + 2) % 256) ((ws.length + 2) / 256 % 256) ((ws.length + 2) / 65536 % 256)
        ((ws.length + 2) / 16777216 % 256) = ws.length + 2 := bytesWord_wordBytes _ (by omega)
    have hr1 : readLoop sched 4 (wordBytes (ws.length + 2) ++ (toBytes (t :: ws)).take (k - 4)) =
        ⟨.ok, [(ws.length + 2) % 256, (ws.length + 2) / 256 % 256, (ws.length + 2) / 65536 % 256,
          (ws.length + 2) / 16777216 % 256], (toBytes (t :: ws)).take (k - 4),
          (readLoop sched 4 (wordBytes (ws.length + 2) ++ (toBytes (t :: ws)).take (k - 4))).sched⟩ := by
      exact ReadRes.eta_of hst hgot.1 hgot.2
    obtain ⟨old, maxLen, b1, b2, b3, b4, b5⟩ := receive_after_length sched _ _ _ _ _ _ _ m hr1
      (by rw [hbw]; omega) (by rw [hbw]; unfold W; omega) hm
    rw [hbw] at b5
    have hmod : (ws.length + 2 - 1) * 4 % W = 4 * (ws.length + 1) := by
      rw [Nat.mod_eq_of_lt (by unfold W; omega)]; omega
    rw [hmod] at b5
    refine ⟨_, b5, ?_⟩
    simp only
    intro hok
    obtain ⟨c1, c2, c3, _⟩ := readLoop_spec
      (readLoop sched 4 (wordBytes (ws.length + 2) ++ (toBytes (t :: ws)).take (k - 4))).sched (4 * (ws.length + 1))
      ((toBytes (t :: ws)).take (k - 4))
    have h1 := c3 hok
    have h2 := congrArg List.length c1
    rw [List.length_append, h1, List.length_take] at h2
    omega

/-- A send split in three with an interruption, received byte-wise and with another interruption. -/
example : ∃ m, buildMessage 6 [1, 70000, 4294967295] = some m ∧
    send [.wrote 3, .eintr, .wrote 0, .wrote 10, .wrote 100] m = some (.ok, wire 6 [1, 70000, 4294967295]) ∧
    ∃ r, receive (.eintr :: List.replicate 30 (.data 0)) (wire 6 [1, 70000, 4294967295] ++ [9]) init = some r ∧
      r.status = .ok ∧ Holds r.msg 6 [1, 70000, 4294967295] ∧ r.rest = [9] := by
  obtain ⟨m, h1, h2⟩ := buildMessage_holds 6 [1, 70000, 4294967295] (by simp)
  have hs : send [.wrote 3, .eintr, .wrote 0, .wrote 10, .wrote 100] m = some (.ok, wire 6 [1, 70000, 4294967295]) := by
    rw [send_holds h2]; decide +kernel
  exact ⟨m, h1, hs, C06_end_to_end m 6 _ h2 (by simp [IsWord]) (by simp [IsWord]) (by simp) _ _ [9] hs _
    (by simp) (by decide)⟩

/-- **C06 is violated for messages of 2^30+1 words or more** (4 GiB): the byte count of the content wraps, so a message
announcing 2^30+1 words is accepted as complete after its 4-byte length alone. -/
theorem C06_huge_message_violated (tail : List Nat) (m : Msg) (hm : Ready m) :
    ∃ r, receive [.data 3] (wordBytes 1073741825 ++ tail) m = some r ∧ r.status = .ok ∧ r.rest = tail := by
  have hbw : bytesWord (1073741825 % 256) (1073741825 / 256 % 256) (1073741825 / 65536 % 256)
      (1073741825 / 16777216 % 256) = 1073741825 := by decide +kernel
  have hr1 : readLoop [.data 3] 4 (wordBytes 1073741825 ++ tail) = ⟨.ok, [1073741825 % 256, 1073741825 / 256 % 256,
      1073741825 / 65536 % 256, 1073741825 / 16777216 % 256], tail, []⟩ := by
    simp [wordBytes, readLoop]
  obtain ⟨old, maxLen, b1, b2, b3, b4, b5⟩ := receive_after_length _ _ _ _ _ _ _ _ m hr1
      (by rw [hbw]; decide) (by rw [hbw]; decide +kernel) hm
  refine ⟨_, b5, ?_⟩
  rw [hbw]
  have : (1073741825 - 1) * 4 % W = 0 := by decide +kernel
  rw [this]
  simp [readLoop]

theorem packBytes_length (bs : List Nat) : (packBytes bs).length = (bs.length + 3) / 4 := by
  fun_induction packBytes bs <;> simp_all; omega

theorem extractChunks_spec (m : Msg) (t : Nat) (bs : List Nat) : ∀ (pre post : List Nat), (∀ b ∈ bs, IsByte b) →
    Holds m t (pre ++ packBytes bs ++ post) →
    extractChunks m ((bs.length + 3) / 4) pre.length bs.length = .ok bs (pre.length + (packBytes bs).length) := by
  fun_induction packBytes bs with
  | case1 a b c d l ih =>
    intro pre post hb h
    have hx : extract m pre.length = .ok (bytesWord a b c d) := extract_spec h _ _ (by simp)
    have hih := ih (pre ++ [bytesWord a b c d]) post (fun x hx => hb x (by simp [hx])) (by simpa using h)
    have e1 : ((a :: b :: c :: d :: l).length + 3) / 4 = (l.length + 3) / 4 + 1 := by
      simp only [List.length_cons]; omega
    have e2 : (a :: b :: c :: d :: l).length - 4 = l.length := by simp only [List.length_cons]; omega
    have e3 : (pre ++ [bytesWord a b c d]).length = pre.length + 1 := by simp
    rw [e3] at hih
    have hwb : wordBytes (bytesWord a b c d) = [a, b, c, d] :=
      wordBytes_bytesWord a b c d (hb a (by simp)) (hb b (by simp)) (hb c (by simp)) (hb d (by simp))
    rw [e1, extractChunks, hx]
    simp only
    rw [e2, hih, hwb]
    simp only
    rw [List.take_of_length_le (by simp), List.length_cons, Nat.add_assoc, Nat.add_comm 1]
    rfl
  | case2 a b c =>
    intro pre post hb h
    have hx : extract m pre.length = .ok (bytesWord a b c 0) := extract_spec h _ _ (by simp)
    have hwb : wordBytes (bytesWord a b c 0) = [a, b, c, 0] :=
      wordBytes_bytesWord a b c 0 (hb a (by simp)) (hb b (by simp)) (hb c (by simp)) (by simp)
    have e1 : ([a, b, c].length + 3) / 4 = 0 + 1 := by simp
    rw [e1, extractChunks, hx]
    simp [extractChunks, hwb]
  | case3 a b =>
    intro pre post hb h
    have hx : extract m pre.length = .ok (bytesWord a b 0 0) := extract_spec h _ _ (by simp)
    have hwb : wordBytes (bytesWord a b 0 0) = [a, b, 0, 0] :=
      wordBytes_bytesWord a b 0 0 (hb a (by simp)) (hb b (by simp)) (by simp) (by simp)
    have e1 : ([a, b].length + 3) / 4 = 0 + 1 := by simp
    rw [e1, extractChunks, hx]
    simp [extractChunks, hwb]
  | case4 a =>
    intro pre post hb h
    have hx : extract m pre.length = .ok (bytesWord a 0 0 0) := extract_spec h _ _ (by simp)
    have hwb : wordBytes (bytesWord a 0 0 0) = [a, 0, 0, 0] :=
      wordBytes_bytesWord a 0 0 0 (hb a (by simp)) (by simp) (by simp) (by simp)
    have e1 : ([a].length + 3) / 4 = 0 + 1 := by simp
    rw [e1, extractChunks, hx]
    simp [extractChunks, hwb]
  | case5 => intro pre post _ _; rfl

/-- **C07** A byte string inserted (by the server) after any words and followed by any words is extracted (by the client)
byte for byte from its word index, and the reader is then at the word that follows it. -/
theorem C07_bytes_round_trip (t : Nat) (pre bs post : List Nat) (hb : ∀ b ∈ bs, IsByte b) (m0 m1 m2 m3 : Msg)
    (h0 : buildMessage t pre = some m0) (h1 : insertBytes m0 bs = some m1) (h2 : insertWords m1 post = some m2)
    (h3 : m3 = m2) (hsz : pre.length + bs.length + post.length + 2 < 2147483648) :
    extractBytes m3 pre.length bs.length = .ok bs (pre.length + (bs.length + 3) / 4) ∧
      ∀ i w, post[i]? = some w → extract m3 (pre.length + (bs.length + 3) / 4 + i) = .ok w := by
  subst h3
  have hpl := packBytes_length bs
  obtain ⟨n0, a1, a2⟩ := buildMessage_holds t pre (by omega)
  rw [h0] at a1; cases a1
  obtain ⟨n1, b1, b2⟩ := insertWords_spec (packBytes bs) a2 (by omega)
  rw [insertBytes, b1] at h1; cases h1
  obtain ⟨n2, c1, c2⟩ := insertWords_spec post b2 (by rw [List.length_append]; omega)
  rw [h2] at c1; cases c1
  refine ⟨?_, fun i w hw => extract_spec c2 _ _ ?_⟩
  · unfold extractBytes
    rw [extractChunks_spec _ t bs pre post hb c2, hpl]
  · rw [List.getElem?_append_right (by rw [List.length_append]; omega), ← hw]
    congr 1
    rw [List.length_append]; omega

/-- The insertions of C07 always succeed. -/
theorem C07_insertions_succeed (t : Nat) (pre bs post : List Nat)
    (hsz : pre.length + bs.length + post.length + 2 < 2147483648) :
    ∃ m0 m1 m2, buildMessage t pre = some m0 ∧ insertBytes m0 bs = some m1 ∧ insertWords m1 post = some m2 := by
  have hpl := packBytes_length bs
  obtain ⟨n0, a1, a2⟩ := buildMessage_holds t pre (by omega)
  obtain ⟨n1, b1, b2⟩ := insertWords_spec (packBytes bs) a2 (by omega)
  obtain ⟨n2, c1, c2⟩ := insertWords_spec post b2 (by rw [List.length_append]; omega)
  exact ⟨n0, n1, n2, a1, b1, c1⟩

example : ∃ m0 m1 m2, buildMessage 2 [8, 9] = some m0 ∧ insertBytes m0 [102, 111, 111, 46, 116] = some m1 ∧
    insertWords m1 [77] = some m2 ∧ extractBytes m2 2 5 = .ok [102, 111, 111, 46, 116] 4 ∧ extract m2 4 = .ok 77 := by
  obtain ⟨m0, m1, m2, h0, h1, h2⟩ := C07_insertions_succeed 2 [8, 9] [102, 111, 111, 46, 116] [77] (by simp)
  have := C07_bytes_round_trip 2 [8, 9] [102, 111, 111, 46, 116] [77] (by simp [IsByte]) m0 m1 m2 m2 h0 h1 h2 rfl (by simp)
  exact ⟨m0, m1, m2, h0, h1, h2, this.1, this.2 0 77 rfl⟩

end Verif.Net
