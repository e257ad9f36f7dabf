import Verif.Model.Net
/-! Helper lemmas for the network model. -/
namespace Verif.Net

/-- The message has type `t` and content words `ws` (followed by unused memory). -/
structure Holds (m : Msg) (t : Nat) (ws : List Nat) : Prop where
  len  : m.mem.length = m.maxLen
  lo   : 256 ≤ m.maxLen
  hi   : m.maxLen < W
  cont : ∃ rest, m.mem = (ws.length + 2) :: t :: (ws ++ rest)

theorem init_eq : init = { mem := 0 :: 0 :: List.replicate 254 0, maxLen := 256 } := by
  have h0 : ∀ n, List.replicate (n + 2) 0 = 0 :: 0 :: List.replicate n 0 := fun n => rfl
  unfold init; rw [← h0 254]

theorem buildHead_init (t : Nat) : ∃ m, buildHead init t = some m ∧ Holds m t [] := by
  refine ⟨{ mem := 2 :: t :: List.replicate 254 0, maxLen := 256 }, ?_, ?_⟩
  · rw [init_eq]; generalize List.replicate 254 0 = r; simp [buildHead]
  · refine ⟨by simp only [List.length_cons, List.length_replicate], Nat.le_refl _, by unfold W; simp, ⟨List.replicate 254 0, ?_⟩⟩
    generalize List.replicate 254 0 = r; simp

theorem Holds.fits {m t ws} (h : Holds m t ws) : ws.length + 2 ≤ m.maxLen := by
  obtain ⟨rest, hr⟩ := h.cont
  have := h.len
  rw [hr] at this
  simp at this; omega

theorem Holds.lengthWord {m t ws} (h : Holds m t ws) : lengthWord m = some (ws.length + 2) := by
  obtain ⟨rest, hr⟩ := h.cont
  simp [Net.lengthWord, hr]

theorem Holds.typeWord {m t ws} (h : Holds m t ws) : typeWord m = some t := by
  obtain ⟨rest, hr⟩ := h.cont
  simp [Net.typeWord, hr]

theorem insert_aux (ws rest : List Nat) (t w x : Nat) :
    ((((ws.length + 2) :: t :: (ws ++ x :: rest)).set (ws.length + 2) w).set 0 (ws.length + 1 + 2)) =
      ((ws ++ [w]).length + 2) :: t :: ((ws ++ [w]) ++ rest) := by
  simp

theorem insertWord_spec {m t ws} (h : Holds m t ws) (w : Nat) (hs : ws.length + 2 < 2147483648) :
    ∃ m', insertWord m w = some m' ∧ Holds m' t (ws ++ [w]) := by
  have hl := h.lengthWord
  have hf := h.fits
  obtain ⟨rest, hr⟩ := h.cont
  have hlen := h.len
  have hlo := h.lo
  have hW : (ws.length + 2 + 1) % W = ws.length + 1 + 2 := by
    rw [Nat.mod_eq_of_lt (by unfold W; omega)]
  unfold insertWord
  rw [hl]
  simp only
  by_cases hfull : ws.length + 2 = m.maxLen
  · have h2 : 2 * m.maxLen % W = 2 * m.maxLen := Nat.mod_eq_of_lt (by unfold W; omega)
    have hrest : rest = [] := by
      rw [hr] at hlen; simp at hlen
      exact List.eq_nil_of_length_eq_zero (by omega)
    subst hrest
    have hinc : increase m (2 * m.maxLen % W) =
        some { mem := m.mem ++ List.replicate m.maxLen 0, maxLen := 2 * m.maxLen } := by
      unfold increase
      rw [h2, if_pos ⟨by omega, by omega⟩, List.take_of_length_le (by omega)]
      rw [show 2 * m.maxLen - m.maxLen = m.maxLen by omega]
    rw [if_pos hfull, hinc]
    simp only
    have hpos : 0 < m.maxLen := by omega
    obtain ⟨k, hk⟩ : ∃ k, m.maxLen = k + 1 := ⟨m.maxLen - 1, by omega⟩
    have hmem : m.mem ++ List.replicate m.maxLen 0 = (ws.length + 2) :: t :: (ws ++ 0 :: List.replicate k 0) := by
      rw [hr, hk, List.replicate_succ]; simp
    have hlt : ws.length + 2 < (m.mem ++ List.replicate m.maxLen 0).length := by
      rw [List.length_append, List.length_replicate]; omega
    rw [if_pos hlt, hmem, hW]
    have := insert_aux ws (List.replicate k 0) t w 0
    rw [this]
    refine ⟨_, rfl, ?_, ?_, ?_, ⟨List.replicate k 0, rfl⟩⟩
    · simp; omega
    · simp; omega
    · show 2 * m.maxLen < W; unfold W; omega
  · rw [if_neg hfull]
    simp only
    have hne : rest ≠ [] := by
      intro h0
      rw [hr, h0] at hlen; simp at hlen; omega
    obtain ⟨x, rest', hx⟩ := List.exists_cons_of_ne_nil hne
    subst hx
    rw [if_pos (by omega), hW, hr, insert_aux ws rest' t w x]
    refine ⟨_, rfl, ?_, h.lo, h.hi, ⟨rest', rfl⟩⟩
    rw [hr] at hlen
    simp at hlen ⊢; omega

theorem insertWords_spec (xs : List Nat) : ∀ {m t ws}, Holds m t ws → ws.length + xs.length + 2 < 2147483648 →
    ∃ m', insertWords m xs = some m' ∧ Holds m' t (ws ++ xs) := by
  induction xs with
  | nil => intro m t ws h _; exact ⟨m, rfl, by simpa using h⟩
  | cons x xs ih =>
    intro m t ws h hs
    simp at hs
    obtain ⟨m1, h1, h2⟩ := insertWord_spec h x (by omega)
    obtain ⟨m2, h3, h4⟩ := ih h2 (by simp; omega)
    exact ⟨m2, by simp [insertWords, h1, h3], by simpa using h4⟩

theorem extract_spec {m t ws} (h : Holds m t ws) (i w : Nat) (hi : ws[i]? = some w) : extract m i = .ok w := by
  have hf := h.fits
  have hlt : i < ws.length := by
    rcases Nat.lt_or_ge i ws.length with h | h
    · exact h
    · rw [List.getElem?_eq_none h] at hi; cases hi
  unfold extract
  rw [if_neg (by omega)]
  obtain ⟨rest, hr⟩ := h.cont
  have : m.mem[2 + i]? = some w := by
    rw [hr, show 2 + i = (i + 1) + 1 by omega, List.getElem?_cons_succ, List.getElem?_cons_succ,
      List.getElem?_append_left hlt, hi]
  rw [this]

theorem wordBytes_length (w : Nat) : (wordBytes w).length = 4 := rfl

theorem toBytes_length (ws : List Nat) : (toBytes ws).length = 4 * ws.length := by
  induction ws with
  | nil => rfl
  | cons w ws ih => simp [toBytes, wordBytes_length, ih]; omega

theorem toBytes_append (a b : List Nat) : toBytes (a ++ b) = toBytes a ++ toBytes b := by
  induction a with
  | nil => rfl
  | cons w ws ih => simp [toBytes, ih]

theorem bytesWord_wordBytes (w : Nat) (h : w < 4294967296) :
    bytesWord (w % 256) (w / 256 % 256) (w / 65536 % 256) (w / 16777216 % 256) = w := by
  unfold bytesWord; omega

theorem wordBytes_bytesWord (a b c d : Nat) (ha : a < 256) (hb : b < 256) (hc : c < 256) (hd : d < 256) :
    wordBytes (bytesWord a b c d) = [a, b, c, d] := by
  unfold wordBytes bytesWord
  congr 1
  · omega
  · congr 1
    · omega
    · congr 1
      · omega
      · congr 1; omega

theorem ofBytes_wordBytes (w : Nat) (h : w < 4294967296) (l : List Nat) :
    ofBytes (wordBytes w ++ l) = w :: ofBytes l := by
  simp only [wordBytes, List.cons_append, List.nil_append, ofBytes, bytesWord_wordBytes w h]

theorem ofBytes_toBytes (ws : List Nat) (h : ∀ w ∈ ws, w < 4294967296) : ofBytes (toBytes ws) = ws := by
  induction ws with
  | nil => rfl
  | cons w ws ih =>
    simp only [toBytes]
    rw [ofBytes_wordBytes w (h w (by simp)), ih (fun x hx => h x (by simp [hx]))]

theorem ofBytes_length (l : List Nat) : (ofBytes l).length = l.length / 4 := by
  fun_induction ofBytes l with
  | case1 a b c d l ih => simp [ih]; omega
  | case2 x h => 
    match x, h with
    | [], _ => rfl
    | [_], _ => simp
    | [_, _], _ => simp
    | [_, _, _], _ => simp
    | a :: b :: c :: d :: l, h => exact absurd rfl (h a b c d l)

theorem sendLoop_spec (s : List WriteEv) : ∀ (l : List Nat),
    (∃ k, (sendLoop s l).2 = l.take k) ∧
    ((sendLoop s l).1 = .ok → (sendLoop s l).2 = l) ∧
    ((∀ e ∈ s, e ≠ .err) → (sendLoop s l).1 ≠ .failure) := by
  induction s with
  | nil => intro l; cases l <;> simp [sendLoop]
  | cons e s ih =>
    intro l
    cases l with
    | nil => simp [sendLoop]
    | cons b l =>
      cases e with
      | eintr =>
        simp only [sendLoop]
        obtain ⟨h1, h2, h3⟩ := ih (b :: l)
        exact ⟨h1, h2, fun h => h3 (fun e he => h e (by simp [he]))⟩
      | err => simp [sendLoop]
      | wrote k =>
        simp only [sendLoop]
        obtain ⟨⟨j, h1⟩, h2, h3⟩ := ih ((b :: l).drop k)
        refine ⟨⟨k + j, ?_⟩, fun h => ?_, fun h => h3 (fun e he => h e (by simp [he]))⟩
        · rw [h1, List.take_add]
        · rw [h2 h, List.take_append_drop]

/-- Number of `data` calls in a schedule. -/
def dataCount : List ReadEv → Nat
  | []           => 0
  | .data _ :: s => dataCount s + 1
  | _ :: s       => dataCount s

theorem ReadRes.eta_of {r : ReadRes} {s g x} (h1 : r.status = s) (h2 : r.got = g) (h3 : r.rest = x) :
    r = ⟨s, g, x, r.sched⟩ := by cases r; simp_all

theorem readLoop_spec (s : List ReadEv) : ∀ (n : Nat) (st : List Nat),
    let r := readLoop s n st
    r.got ++ r.rest = st ∧ r.got.length ≤ n ∧
    (r.status = .ok → r.got.length = n) ∧
    ((∀ e ∈ s, e ≠ .err) → n ≤ st.length → r.status ≠ .failure) ∧
    (r.status = .blocked → dataCount s < n ∧ r.sched = []) ∧
    (∀ e ∈ r.sched, e ∈ s) ∧
    (r.status = .ok → dataCount s ≤ dataCount r.sched + n) := by
  induction s with
  | nil =>
    intro n st
    cases n <;> simp [readLoop, dataCount]
  | cons e s ih =>
    intro n st
    cases n with
    | zero => simp [readLoop]
    | succ n =>
      cases e with
      | eintr =>
        simp only [readLoop]
        obtain ⟨h1, h2, h3, h4, h5, h6, h7⟩ := ih (n + 1) st
        exact ⟨h1, h2, h3, fun h => h4 (fun e he => h e (by simp [he])), h5,
          fun e he => by simp [h6 e he], h7⟩
      | err =>
        simp [readLoop]
        intro e he; exact Or.inr he
      | data k =>
        cases st with
        | nil => 
          simp [readLoop]
          intro e he; exact Or.inr he
        | cons b bs =>
          simp only [readLoop]
          have hL : 1 ≤ (b :: bs).length := by simp
          have hcpos : 1 ≤ min (k + 1) (min (n + 1) (b :: bs).length) := by omega
          have hcn : min (k + 1) (min (n + 1) (b :: bs).length) ≤ n + 1 := by omega
          have hcl : min (k + 1) (min (n + 1) (b :: bs).length) ≤ (b :: bs).length := by omega
          generalize min (k + 1) (min (n + 1) (b :: bs).length) = c at hcpos hcn hcl
          obtain ⟨h1, h2, h3, h4, h5, h6, h7⟩ := ih (n + 1 - c) ((b :: bs).drop c)
          generalize readLoop s (n + 1 - c) ((b :: bs).drop c) = r at h1 h2 h3 h4 h5 h6 h7
          refine ⟨?_, ?_, fun h => ?_, fun h hn => ?_, fun h => ?_, fun e he => ?_, fun h => ?_⟩
          · rw [List.append_assoc, h1, List.take_append_drop]
          · rw [List.length_append, List.length_take]; omega
          · have h3' := h3 h
            rw [List.length_append, h3', List.length_take]
            omega
          · exact h4 (fun e he => h e (by simp [he])) (by rw [List.length_drop]; omega)
          · have := h5 h
            simp only [dataCount]
            exact ⟨by omega, this.2⟩
          · simp [h6 e he]
          · have := h7 h
            simp only [dataCount]; omega

end Verif.Net
