import Verif.Model.Printer
import Verif.Props.Writable
import Verif.Model.FrontEnd
import Verif.Props.PowersQueue
import Mathlib.Tactic.FieldSimp

/-! C73: input files written by the library (`generate_floorplan_file`, `generate_stack_description_file`) and read again. -/

set_option linter.unusedSectionVars false
set_option linter.unusedSimpArgs false
set_option linter.unusedVariables false

namespace Verif.Print
open Verif.PowersQueue Verif.TG Verif.Scan Verif.Gram

/-! ### Specification -/

/-- `v` is `q` rounded to `n` digits after the point: the nearest such number, of two equally near ones the one with the even last digit. -/
def IsRounded (n : Nat) (q v : ℚ) : Prop :=
  ∃ z : ℤ, v = z / 10 ^ n ∧ |v - q| ≤ 1 / (2 * 10 ^ n) ∧ (|v - q| = 1 / (2 * 10 ^ n) → Even z)

/-- `q` has at most `n` digits after the point. -/
def Decimals (n : Nat) (q : ℚ) : Prop := ∃ z : ℤ, q = z / 10 ^ n

/-- The rectangles of an element of a floorplan file. -/
def rectsOf : AreaD → List (Rect ℚ)
  | .one x y l w _ _ => [⟨x, y, l, w⟩]
  | .many rs => rs

/-- An element written and read again: the same name, rectangles rounded to one digit after the point, the power values `ps` rounded to three. -/
structure Reread (id : String) (rects : List (Rect ℚ)) (ps : List ℚ) (f : FlpD) : Prop where
  id : f.id = id
  area : ∃ rs, f.area = .many rs ∧ List.Forall₂ (fun r r' => IsRounded 1 r.x r'.x ∧ IsRounded 1 r.y r'.y ∧ IsRounded 1 r.length r'.length ∧
    IsRounded 1 r.width r'.width) rects rs
  powers : List.Forall₂ (IsRounded 3) ps f.powers

/-- What has happened to an element since its file was read: values appended and values taken. -/
abbrev History := FlpD × List (Op ℚ)

/-- All that has been done with the queue of an element: the values of the file have been put into it one after the other
(bison/floorplan_parser.y:468-520), then what happened since. -/
def opsOf (h : History) : List (Op ℚ) := h.1.powers.map .put ++ h.2

/-- The element in memory after that. The queue starts with room for ten values (bison/floorplan_parser.y:484, 508) and never holds 2^31. -/
structure Held (h : History) (e : Element) : Prop where
  id : e.id = h.1.id
  rects : e.rects = rectsOf h.1.area
  fits : Fits [] (opsOf h)
  queue : ∃ outs, run (build init 10) (opsOf h) = some (outs, e.powers)

/-- The values that have been put and not yet taken. -/
def pending (h : History) : List ℚ := (specRun [] (opsOf h)).2

/-- An element that can be written: its name is one, it has a rectangle and its queue is in order. -/
structure Sound (e : Element) : Prop where
  name : IsName e.id.toList
  word : e.id ∉ flpLex.kws
  rects : e.rects ≠ []
  queue : Inv e.powers

/-! ### Rounding -/

theorem toNearest_spec {q : ℚ} (h : 0 ≤ q) : |(toNearest q : ℚ) - q| ≤ 1 / 2 ∧ (|(toNearest q : ℚ) - q| = 1 / 2 → Even (toNearest q)) := by
  have h1 := Nat.floor_le h
  have h2 := Nat.lt_floor_add_one q
  unfold toNearest
  simp only
  generalize ⌊q⌋₊ = f at h1 h2
  by_cases a : q - f < 1 / 2
  · rw [if_pos a]
    constructor
    · rw [abs_le]; constructor <;> linarith
    · intro e
      rw [abs_of_nonpos (by linarith)] at e
      linarith
  rw [if_neg a]
  by_cases b : 1 / 2 < q - f
  · rw [if_pos b]
    constructor
    · rw [abs_le]; push_cast; constructor <;> linarith
    · intro e
      push_cast at e
      rw [abs_of_nonneg (by linarith)] at e
      linarith
  rw [if_neg b]
  have c : q - f = 1 / 2 := le_antisymm (not_lt.mp b) (not_lt.mp a)
  by_cases d : f % 2 = 0
  · rw [if_pos d]
    exact ⟨by rw [abs_le]; constructor <;> linarith, fun _ => Nat.even_iff.mpr d⟩
  · rw [if_neg d]
    exact ⟨by rw [abs_le]; push_cast; constructor <;> linarith, fun _ => by rw [Nat.even_iff]; omega⟩

theorem rounded_of {n : Nat} {q : ℚ} : IsRounded n q (if q < 0 then - ((toNearest (|q| * 10 ^ n) : ℚ) / 10 ^ n) else (toNearest (|q| * 10 ^ n) : ℚ) / 10 ^ n) := by
  have hp : (0 : ℚ) < 10 ^ n := by positivity
  obtain ⟨h1, h2⟩ := toNearest_spec (q := |q| * 10 ^ n) (by positivity)
  generalize toNearest (|q| * 10 ^ n) = m at h1 h2
  have key : |(m : ℚ) / 10 ^ n - abs q| = |(m : ℚ) - abs q * 10 ^ n| / 10 ^ n := by
    rw [← abs_of_pos hp, ← abs_div, abs_of_pos hp, sub_div, mul_div_cancel_right₀ _ hp.ne']
  have half : (1 : ℚ) / (2 * 10 ^ n) = 1 / 2 / 10 ^ n := by rw [div_div]
  have fin : |(m : ℚ) / 10 ^ n - abs q| ≤ 1 / (2 * 10 ^ n) ∧ (|(m : ℚ) / 10 ^ n - abs q| = 1 / (2 * 10 ^ n) → Even (m : ℤ)) := by
    rw [key, half]
    refine ⟨div_le_div_of_nonneg_right h1 hp.le, fun e => ?_⟩
    have := h2 ((div_left_inj' hp.ne').mp e)
    exact_mod_cast this
  by_cases hq : q < 0
  · rw [if_pos hq]
    rw [abs_of_neg hq] at fin
    have e : |-((m : ℚ) / 10 ^ n) - q| = |(m : ℚ) / 10 ^ n - (-q)| := by
      rw [← abs_neg]; congr 1; ring
    refine ⟨- (m : ℤ), by push_cast; ring, ?_, ?_⟩
    · rw [e]; exact fin.1
    · rw [e]; intro x; exact (fin.2 x).neg
  · rw [if_neg hq]
    rw [abs_of_nonneg (not_lt.mp hq)] at fin
    exact ⟨m, by push_cast; ring, fin.1, fin.2⟩

/-- A number with few enough digits is not changed. -/
theorem IsRounded.exact {n : Nat} {q v : ℚ} (h : IsRounded n q v) (d : Decimals n q) : v = q := by
  obtain ⟨z, hz, hb, -⟩ := h
  obtain ⟨y, hy⟩ := d
  have hp : (0 : ℚ) < 10 ^ n := by positivity
  have e : v - q = ((z - y : ℤ) : ℚ) / 10 ^ n := by rw [hz, hy]; push_cast; ring
  rw [e, abs_div, abs_of_pos hp, show (1 : ℚ) / (2 * 10 ^ n) = 1 / 2 / 10 ^ n by rw [div_div], div_le_div_iff_of_pos_right hp] at hb
  have : z - y = 0 := by
    by_contra hne
    have h1 : (1 : ℤ) ≤ |z - y| := Int.one_le_abs hne
    have h2 : (1 : ℚ) ≤ |((z - y : ℤ) : ℚ)| := by exact_mod_cast h1
    linarith
  rw [hz, hy, show z = y by omega]

/-! ### Numerals -/

theorem digit_dig (n : Nat) : digit n = dig ⟨n % 10, Nat.mod_lt _ (by omega)⟩ := by
  have : ∀ d : Fin 10, Char.ofNat (48 + d.val) = dig d := by decide
  exact this ⟨n % 10, Nat.mod_lt _ (by omega)⟩

theorem natOf_snoc (ds : List (Fin 10)) (d : Fin 10) : natOf (ds ++ [d]) = natOf ds * 10 + d.val := by
  rw [natOf_append]; simp [natOf]

theorem decimal_digits (n : Nat) : ∃ ds : List (Fin 10), ds ≠ [] ∧ decimal n = ds.map dig ∧ natOf ds = n := by
  induction n using Nat.strong_induction_on with
  | _ n ih =>
    rw [decimal]
    by_cases h : n < 10
    · refine ⟨[⟨n % 10, Nat.mod_lt _ (by omega)⟩], by simp, ?_, ?_⟩
      · rw [if_pos h, digit_dig]; rfl
      · show 10 * 0 + n % 10 = n
        omega
    · obtain ⟨ds, h1, h2, h3⟩ := ih (n / 10) (by omega)
      refine ⟨ds ++ [⟨n % 10, Nat.mod_lt _ (by omega)⟩], by simp, ?_, ?_⟩
      · rw [if_neg h, digit_dig, h2]; simp
      · rw [natOf_snoc, h3]
        show n / 10 * 10 + n % 10 = n
        omega

theorem padded_digits (k : Nat) : ∀ n, ∃ ds : List (Fin 10), ds.length = k ∧ padded k n = ds.map dig ∧ natOf ds = n % 10 ^ k := by
  induction k with
  | zero => intro n; exact ⟨[], rfl, rfl, by simp [natOf, Nat.mod_one]⟩
  | succ k ih =>
    intro n
    obtain ⟨ds, h1, h2, h3⟩ := ih (n / 10)
    refine ⟨ds ++ [⟨n % 10, Nat.mod_lt _ (by omega)⟩], by simp [h1], ?_, ?_⟩
    · rw [padded, digit_dig, h2]; simp
    · rw [natOf_snoc, h3]
      show n / 10 % 10 ^ k * 10 + n % 10 = n % 10 ^ (k + 1)
      rw [pow_succ, Nat.mul_comm (10 ^ k) 10, Nat.mod_mul]
      ring

/-- What `%.nf` writes is a number, which is the value rounded. -/
theorem fixed_spells (L : Lexicon) {n : Nat} (hn : 0 < n) (q : ℚ) : ∃ v, IsRounded n q v ∧ Spells L (.num v) (fixed n q) := by
  obtain ⟨a, a1, a2, a3⟩ := decimal_digits (toNearest (|q| * 10 ^ n) / 10 ^ n)
  obtain ⟨b, b1, b2, b3⟩ := padded_digits n (toNearest (|q| * 10 ^ n) % 10 ^ n)
  let N : Numeral := ⟨if q < 0 then .minus else .no, a, some b, none⟩
  have ok : N.Ok := ⟨a1, fun f hf => by cases hf; exact List.ne_nil_of_length_pos (by omega), fun e he => by cases he⟩
  have ht : fixed n q = N.text := by
    unfold fixed Numeral.text
    simp only [N, a2, b2, fracText, expText, List.append_nil]
    by_cases hq : q < 0 <;> simp [hq, Sign.text]
  have hv : N.value = if q < 0 then - ((toNearest (|q| * 10 ^ n) : ℚ) / 10 ^ n) else (toNearest (|q| * 10 ^ n) : ℚ) / 10 ^ n := by
    have hp : (10 : ℚ) ^ n ≠ 0 := by positivity
    have core : ((natOf a : ℚ) + (natOf b : ℚ) / 10 ^ b.length) * (10 : ℚ) ^ (0 : ℤ) = (toNearest (|q| * 10 ^ n) : ℚ) / 10 ^ n := by
      rw [a3, b3, b1, Nat.mod_mod, zpow_zero, mul_one, eq_div_iff hp, add_mul, div_mul_cancel₀ _ hp]
      have := Nat.div_add_mod' (toNearest (|q| * 10 ^ n)) (10 ^ n)
      exact_mod_cast this
    unfold Numeral.value
    simp only [N, fracVal, expVal, core]
    by_cases hq : q < 0 <;> simp [hq, Sign.apply]
  exact ⟨N.value, hv ▸ rounded_of, ht ▸ .num ok⟩

/-- What `%.ne` writes is a number. -/
theorem scientific_spells (L : Lexicon) {n : Nat} (hn : 0 < n) (q : ℚ) : ∃ v, Spells L (.num v) (scientific n q) := by
  obtain ⟨a, a1, a2, a3⟩ := decimal_digits ((mantissa n q).1 / 10 ^ n)
  obtain ⟨b, b1, b2, b3⟩ := padded_digits n ((mantissa n q).1 % 10 ^ n)
  obtain ⟨c, c1, c2, c3⟩ := decimal_digits (mantissa n q).2.natAbs
  let N : Numeral := ⟨if q < 0 then .minus else .no, a, some b,
    some (false, if (mantissa n q).2 < 0 then .minus else .plus, (if (mantissa n q).2.natAbs < 10 then [0] else []) ++ c)⟩
  have ok : N.Ok := ⟨a1, fun f hf => by cases hf; exact List.ne_nil_of_length_pos (by omega), fun e he => by cases he; simp [c1]⟩
  have ht : scientific n q = N.text := by
    unfold scientific Numeral.text
    simp only [N, a2, b2, c2, fracText, expText, List.map_append]
    have hd : dig 0 = '0' := rfl
    by_cases hq : q < 0 <;> by_cases he : (mantissa n q).2 < 0 <;> by_cases h0 : (mantissa n q).2.natAbs < 10 <;> simp [hq, he, h0, Sign.text, hd]
  exact ⟨N.value, ht ▸ .num ok⟩

/-! ### Texts -/

section
variable {L : Lexicon} {ts : List Tok} {s : List Char}

theorem w_blank {c : Char} (hc : blank c = true) (h : Written L ts s) : Written L ts (c :: s) := .gap (.space hc) h

theorem w_blanks {g : List Char} (hg : g.all blank = true) (h : Written L ts s) : Written L ts (g ++ s) := by
  induction g with
  | nil => exact h
  | cons c g ih =>
    rw [List.all_cons, Bool.and_eq_true] at hg
    exact w_blank hg.1 (ih hg.2)

theorem w_sym {c : Char} (hc : c ∈ L.syms) (h : Written L ts s) : Written L (.sym c :: ts) (c :: s) := .tok (.sym hc) trivial h

/-- The text after a word or a number begins with a character that ends it. -/
def Stops (s : List Char) : Prop := ∀ c ∈ s.head?, wordy c = false

theorem stops_cons {c : Char} (h : wordy c = false) : Stops (c :: s) := by
  intro x hx
  simp only [List.head?_cons, Option.mem_some_iff] at hx
  exact hx ▸ h

theorem w_kw {k : String} (hk : k ∈ L.kws) (hs : Stops s) (h : Written L ts s) : Written L (.kw k :: ts) (k.toList ++ s) := .tok (.kw hk) hs h

theorem w_ident {k : String} (hi : IsName k.toList) (hk : k ∉ L.kws) (hs : Stops s) (h : Written L ts s) : Written L (.ident k :: ts) (k.toList ++ s) :=
  .tok (.ident hi hk) hs h

theorem w_num {v : ℚ} {w : List Char} (hw : Spells L (.num v) w) (hs : Stops s) (h : Written L ts s) : Written L (.num v :: ts) (w ++ s) := .tok hw hs h

end

theorem rect_written (r : Rect ℚ) : ∃ r' : Rect ℚ, (IsRounded 1 r.x r'.x ∧ IsRounded 1 r.y r'.y ∧ IsRounded 1 r.length r'.length ∧ IsRounded 1 r.width r'.width) ∧
    ∀ {ts s}, Written flpLex ts s → Written flpLex (rectToks r' ++ ts) (rectText r ++ s) := by
  obtain ⟨x, x1, x2⟩ := fixed_spells flpLex one_pos r.x
  obtain ⟨y, y1, y2⟩ := fixed_spells flpLex one_pos r.y
  obtain ⟨l, l1, l2⟩ := fixed_spells flpLex one_pos r.length
  obtain ⟨w, w1, w2⟩ := fixed_spells flpLex one_pos r.width
  refine ⟨⟨x, y, l, w⟩, ⟨x1, y1, l1, w1⟩, fun {ts s} h => ?_⟩
  have e1 : "   rectangle (".toList = [' ', ' ', ' '] ++ ("rectangle".toList ++ [' ', '(']) := by decide
  have e2 : ", ".toList = [',', ' '] := by decide
  have e3 : " ) ;\n\n".toList = [' ', ')', ' ', ';', '\n', '\n'] := by decide
  unfold rectText
  rw [e1, e2, e3]
  simp only [rectToks, List.append_assoc, List.cons_append, List.nil_append]
  refine w_blank rfl (w_blank rfl (w_blank rfl (w_kw (by decide) (stops_cons (by decide)) (w_blank rfl (w_sym (by decide) ?_)))))
  refine w_num x2 (stops_cons (by decide)) (w_sym (by decide) (w_blank rfl ?_))
  refine w_num y2 (stops_cons (by decide)) (w_sym (by decide) (w_blank rfl ?_))
  refine w_num l2 (stops_cons (by decide)) (w_sym (by decide) (w_blank rfl ?_))
  refine w_num w2 (stops_cons (by decide)) (w_blank rfl (w_sym (by decide) (w_blank rfl (w_sym (by decide) ?_))))
  exact w_blank rfl (w_blank rfl h)

theorem rects_written : ∀ rs : List (Rect ℚ), ∃ rs', List.Forall₂ (fun r r' => IsRounded 1 r.x r'.x ∧ IsRounded 1 r.y r'.y ∧
      IsRounded 1 r.length r'.length ∧ IsRounded 1 r.width r'.width) rs rs' ∧
    ∀ {ts s}, Written flpLex ts s → Written flpLex (rs'.flatMap rectToks ++ ts) (rs.flatMap rectText ++ s)
  | [] => ⟨[], .nil, fun h => h⟩
  | r :: rs => by
    obtain ⟨r', h1, h2⟩ := rect_written r
    obtain ⟨rs', h3, h4⟩ := rects_written rs
    refine ⟨r' :: rs', .cons h1 h3, fun {ts s} h => ?_⟩
    simp only [List.flatMap_cons, List.append_assoc]
    exact h2 (h4 h)

/-- Values with commas between them. -/
def commaToks : List ℚ → List Tok
  | [] => []
  | p :: ps => .num p :: ps.flatMap fun q => [comma, .num q]

theorem loop_written {q : PQ ℚ} {m : List ℚ} (hm : m.length = q.cap) (hp : 0 < q.cap) (hW : q.cap < PowersQueue.W) : ∀ (k i : Nat), i < q.cap →
    ∃ t vs, queueLoop q m k i = some t ∧ List.Forall₂ (IsRounded 3) ((List.range (k + 1)).map fun j => m.getD ((i + j) % q.cap) 0) vs ∧
      ∀ {ts s}, Written flpLex ts s → Written flpLex (commaToks vs ++ ts) (t ++ s)
  | 0, i, hi => by
    have hi' : i < m.length := by omega
    obtain ⟨v, v1, v2⟩ := fixed_spells flpLex (n := 3) (by omega) m[i]
    refine ⟨fixed 3 m[i] ++ [' '], [v], ?_, ?_, fun {ts s} h => ?_⟩
    · simp only [queueLoop, List.getElem?_eq_getElem hi', Option.map_some]
    · have : (List.range (0 + 1)).map (fun j => m.getD ((i + j) % q.cap) 0) = [m[i]] := by
        simp [Nat.mod_eq_of_lt hi, List.getD_eq_getElem?_getD, List.getElem?_eq_getElem hi']
      rw [this]
      exact .cons v1 .nil
    · simp only [commaToks, List.append_assoc, List.cons_append, List.nil_append, List.flatMap_nil]
      exact w_num v2 (stops_cons (by decide)) (w_blank rfl h)
  | k + 1, i, hi => by
    have hi' : i < m.length := by omega
    obtain ⟨v, v1, v2⟩ := fixed_spells flpLex (n := 3) (by omega) m[i]
    have hnext : (i + 1) % PowersQueue.W % q.cap = (i + 1) % q.cap := by rw [Nat.mod_eq_of_lt (a := i + 1) (by omega)]
    obtain ⟨t, vs, h1, h2, h3⟩ := loop_written hm hp hW k ((i + 1) % q.cap) (Nat.mod_lt _ hp)
    refine ⟨fixed 3 m[i] ++ (", ".toList ++ t), v :: vs, ?_, ?_, fun {ts s} h => ?_⟩
    · simp only [queueLoop, List.getElem?_eq_getElem hi', Option.bind_some, if_neg hp.ne', hnext, h1, Option.map_some]
    · rw [List.range_succ_eq_map, List.map_cons, List.map_map]
      refine .cons ?_ ?_
      · rw [Nat.add_zero, Nat.mod_eq_of_lt hi, List.getD_eq_getElem?_getD, List.getElem?_eq_getElem hi']
        exact v1
      · refine Eq.mp ?_ h2
        congr 1
        apply List.map_congr_left
        intro j _
        simp only [Function.comp]
        rw [Nat.mod_add_mod]
        congr 2
        omega
    · have e2 : ", ".toList = [',', ' '] := by decide
      have hne : ∃ w ws, vs = w :: ws := by
        cases vs with
        | nil => rw [List.range_succ_eq_map] at h2; cases h2
        | cons w ws => exact ⟨w, ws, rfl⟩
      obtain ⟨w, ws, rfl⟩ := hne
      rw [e2]
      simp only [commaToks, List.append_assoc, List.cons_append, List.nil_append, List.flatMap_cons]
      refine w_num v2 (stops_cons (by decide)) (w_sym (by decide) (w_blank rfl ?_))
      have := h3 h
      simpa only [commaToks, List.cons_append] using this

theorem queue_written {q : PQ ℚ} (h : Inv q) : ∃ t vs, queueText q = some t ∧ List.Forall₂ (IsRounded 3) (toList q) vs ∧
    ∀ {ts s}, Written flpLex ts s → Written flpLex (commaToks vs ++ ts) (t ++ s) := by
  obtain ⟨m, hm, hl⟩ := h.ex
  by_cases hs : q.size = 0
  · refine ⟨[' '], [], ?_, ?_, fun {ts s} hw => w_blank rfl hw⟩
    · unfold queueText
      rw [if_pos (by simp [isEmpty, hs])]
    · have : toList q = [] := by rw [← List.length_eq_zero_iff, toList_length q h, hs]
      rw [this]
      exact .nil
  obtain ⟨t, vs, h1, h2, h3⟩ := loop_written hl h.pos h.capW (q.size - 1) q.start h.st
  refine ⟨' ' :: t, vs, ?_, ?_, fun {ts s} hw => ?_⟩
  · unfold queueText
    rw [if_neg (by simp [isEmpty, hs]), hm, Option.bind_some, h1]
    rfl
  · rw [Nat.sub_add_cancel (by omega)] at h2
    simp only [toList, hm]
    exact h2
  · exact w_blank rfl (h3 hw)

theorem powersToks_comma {vs : List ℚ} (h : vs ≠ []) : powersToks vs = [kw "power", kw "values"] ++ (commaToks vs ++ [semi]) := by
  cases vs with
  | nil => exact absurd rfl h
  | cons v vs => simp [powersToks, commaToks]

/-- The tokens that are written for an element, also if it has no power values. -/
def printed (f : FlpD) : List Tok := [.ident f.id, colon] ++ (f.area.toks ++ ([kw "power", kw "values"] ++ (commaToks f.powers ++ [semi])))

theorem printed_toks {f : FlpD} (h : f.powers ≠ []) : printed f = f.toks := by
  simp only [printed, FlpD.toks, powersToks_comma h, List.append_assoc]

theorem element_written {e : Element} (h : Sound e) : ∃ t f, elementText e = some t ∧ Reread e.id e.rects (toList e.powers) f ∧ f.area.Ok ∧
    ∀ {ts s}, Written flpLex ts s → Written flpLex (printed f ++ ts) (t ++ s) := by
  obtain ⟨rs, h1, h2⟩ := rects_written e.rects
  obtain ⟨t, vs, h3, h4, h5⟩ := queue_written h.queue
  have hr : rs ≠ [] := by
    rintro rfl
    have := h.rects
    generalize e.rects = l at h1 this
    cases h1
    exact this rfl
  refine ⟨_, ⟨e.id, .many rs, vs⟩, by rw [elementText, h3]; rfl, ⟨rfl, ⟨rs, rfl, h1⟩, h4⟩, hr, fun {ts s} hw => ?_⟩
  have e1 : ":\n".toList = [':', '\n'] := by decide
  have e2 : "   power values ".toList = [' ', ' ', ' '] ++ ("power".toList ++ (' ' :: ("values".toList ++ [' ']))) := by decide
  have e3 : " ;\n\n\n".toList = [' ', ';', '\n', '\n', '\n'] := by decide
  rw [e1, e2, e3]
  simp only [printed, AreaD.toks, List.append_assoc, List.cons_append, List.nil_append]
  refine w_ident h.name h.word (stops_cons (by decide)) (w_sym (by decide) (w_blank rfl (h2 ?_)))
  refine w_blank rfl (w_blank rfl (w_blank rfl (w_kw (by decide) (stops_cons (by decide)) (w_blank rfl (w_kw (by decide) (stops_cons (by decide)) ?_)))))
  exact w_blank rfl (h5 (w_blank rfl (w_sym (by decide) (w_blank rfl (w_blank rfl (w_blank rfl hw))))))

theorem floorplan_written : ∀ {es : List Element}, (∀ e ∈ es, Sound e) → ∃ t fs, floorplanText es = some t ∧ List.Forall₂ (fun e f => Reread e.id e.rects (toList e.powers) f) es fs ∧
    (∀ f ∈ fs, f.area.Ok) ∧ Written flpLex (fs.flatMap printed) t
  | [], _ => ⟨[], [], rfl, .nil, by simp, .nil⟩
  | e :: es, h => by
    obtain ⟨t, f, h1, h2, h3, h4⟩ := element_written (h e (by simp))
    obtain ⟨u, fs, h5, h6, h7, h8⟩ := floorplan_written (es := es) fun x hx => h x (by simp [hx])
    refine ⟨t ++ u, f :: fs, by rw [floorplanText, h1, h5]; rfl, .cons h2 h6, ?_, ?_⟩
    · intro x hx
      rcases List.mem_cons.mp hx with rfl | hx
      · exact h3
      · exact h7 x hx
    · rw [List.flatMap_cons]
      exact h4 h8

/-! ### `power values` with nothing after it -/

/-- `values` is followed by a semicolon somewhere. -/
def clash : List Tok → Bool
  | a :: b :: r => (decide (a = kw "values") && decide (b = semi)) || clash (b :: r)
  | _ => false

theorem clash_cons {a : Tok} (h : a ≠ kw "values") (r : List Tok) : clash (a :: r) = clash r := by
  cases r with
  | nil => rfl
  | cons b r => simp [clash, h]

theorem clash_num (q : ℚ) (r : List Tok) : clash (kw "values" :: .num q :: r) = clash r := by
  rw [clash, clash_cons (by simp [kw])]
  simp [semi]

theorem clash_skip {l : List Tok} (h : ∀ a ∈ l, a ≠ kw "values") (r : List Tok) : clash (l ++ r) = clash r := by
  induction l with
  | nil => rfl
  | cons a l ih => rw [List.cons_append, clash_cons (h a (by simp)), ih fun x hx => h x (by simp [hx])]

theorem clash_found (l r : List Tok) : clash (l ++ kw "values" :: semi :: r) = true := by
  induction l with
  | nil => simp [clash]
  | cons a l ih =>
    cases l with
    | nil => rw [List.cons_append, List.nil_append, clash]; rw [List.nil_append] at ih; rw [ih, Bool.or_true]
    | cons b l => rw [List.cons_append, List.cons_append, clash]; rw [List.cons_append] at ih; rw [ih, Bool.or_true]

theorem area_skip (a : AreaD) : ∀ t ∈ a.toks, t ≠ kw "values" := by
  cases a with
  | one x y l w m d => cases m <;> cases d <;> simp [AreaD.toks, optToks, kw, semi, comma]
  | many rs =>
    intro t ht
    simp only [AreaD.toks, List.mem_flatMap] at ht
    obtain ⟨r, -, ht⟩ := ht
    simp only [rectToks, kw, semi, comma, List.mem_cons, List.not_mem_nil, or_false] at ht
    rcases ht with rfl | rfl | rfl | rfl | rfl | rfl | rfl | rfl | rfl | rfl | rfl <;> simp [kw]

theorem toks_clash (f : FlpD) (r : List Tok) : clash (f.toks ++ r) = clash r := by
  simp only [FlpD.toks, List.append_assoc, List.cons_append, List.nil_append]
  rw [clash_cons (by simp [kw]), clash_cons (by simp [kw, colon]), clash_skip (area_skip f.area)]
  cases f.powers with
  | nil => rfl
  | cons p ps =>
    simp only [powersToks, List.append_assoc, List.cons_append, List.nil_append]
    rw [clash_cons (by simp [kw]), clash_num, clash_skip, clash_cons (by simp [kw, semi])]
    intro a ha
    simp only [List.mem_flatMap, List.mem_cons, List.not_mem_nil, or_false] at ha
    obtain ⟨q, -, rfl | rfl⟩ := ha <;> simp [kw, comma]

theorem flps_clash (fs : List FlpD) : clash (fs.flatMap FlpD.toks) = false := by
  induction fs with
  | nil => rfl
  | cons f fs ih => rw [List.flatMap_cons, toks_clash, ih]

/-! ### The theorems -/

theorem floorplan_reread {es : List Element} (hne : es ≠ []) (h : ∀ e ∈ es, Sound e) (hp : ∀ e ∈ es, toList e.powers ≠ []) :
    ∃ t fs, floorplanText es = some t ∧ parseFlpFile (scan flpRules .initial t) = some fs ∧ List.Forall₂ (fun e f => Reread e.id e.rects (toList e.powers) f) es fs := by
  obtain ⟨t, fs, h1, h2, h3, h4⟩ := floorplan_written h
  refine ⟨t, fs, h1, ?_, h2⟩
  have hv : ∀ f ∈ fs, f.powers ≠ [] := by
    intro f hf
    obtain ⟨i, hi, rfl⟩ := List.getElem_of_mem hf
    have hl := h2.length_eq
    have hr := List.Forall₂.get h2 (i := i) (by omega) hi
    intro hnil
    have hq := hr.powers
    simp only [List.get_eq_getElem] at hq
    rw [hnil] at hq
    have := hp es[i] (List.getElem_mem _)
    generalize toList es[i].powers = l at hq this
    cases hq
    exact this rfl
  have e : fs.flatMap printed = fs.flatMap FlpD.toks := by
    simp only [List.flatMap_def]
    congr 1
    exact List.map_congr_left fun f hf => printed_toks (hv f hf)
  rw [scan_written flp_implements h4, C66_floorplan]
  refine ⟨⟨?_, h3⟩, e.symm⟩
  rintro rfl
  cases h2
  exact hne rfl

theorem floorplan_refused {es : List Element} (h : ∀ e ∈ es, Sound e) {e : Element} (he : e ∈ es) (hp : toList e.powers = []) :
    ∃ t, floorplanText es = some t ∧ parseFlpFile (scan flpRules .initial t) = none := by
  obtain ⟨t, fs, h1, h2, h3, h4⟩ := floorplan_written h
  refine ⟨t, h1, ?_⟩
  rw [scan_written flp_implements h4]
  cases hx : parseFlpFile (fs.flatMap printed) with
  | none => rfl
  | some gs =>
    obtain ⟨-, e⟩ := C66_floorplan.mp hx
    have c := flps_clash gs
    rw [e] at c
    obtain ⟨i, hi, rfl⟩ := List.getElem_of_mem he
    have hl := h2.length_eq
    have hr := List.Forall₂.get h2 hi (by omega : i < fs.length)
    have hq := hr.powers
    simp only [List.get_eq_getElem, hp] at hq
    have hnil : fs[i].powers = [] := by
      generalize fs[i].powers = l at hq
      cases hq
      rfl
    have hm : fs[i] ∈ fs := List.getElem_mem _
    obtain ⟨a, b, hab⟩ := List.append_of_mem hm
    generalize fs[i] = f at hnil hab
    rw [hab, List.flatMap_append, List.flatMap_cons] at c
    have : printed f = ([.ident f.id, colon] ++ f.area.toks ++ [kw "power"]) ++ kw "values" :: semi :: [] := by
      simp [printed, hnil, commaToks]
    rw [this, List.append_assoc, ← List.append_assoc] at c
    exact Bool.noConfusion ((clash_found _ (b.flatMap printed)).symm.trans c)

theorem written_ident {L : Lexicon} {ts : List Tok} {s : List Char} (h : Written L ts s) {n : String} (hn : Tok.ident n ∈ ts) : IsName n.toList ∧ n ∉ L.kws := by
  induction h with
  | nil => cases hn
  | gap _ _ ih => exact ih hn
  | tok hs _ _ ih =>
    rcases List.mem_cons.mp hn with rfl | hn
    · cases hs with
      | ident hi hk => exact ⟨hi, hk⟩
    · exact ih hn

theorem held_queue {h : History} {e : Element} (hh : Held h e) : Inv e.powers ∧ toList e.powers = pending h := by
  obtain ⟨outs, hr⟩ := hh.queue
  obtain ⟨q2, h1, h2, h3⟩ := run_refines (opsOf h) (build init 10) (build_inv _ (by omega) (by simp [PowersQueue.W])) (by rw [toList_build]; exact hh.fits)
  rw [hr] at h1
  cases h1
  rw [toList_build] at h3
  exact ⟨h2, h3⟩

theorem held_sound {hs : List History} {es : List Element} {text : List Char} (hw : Written flpLex ((hs.map (·.1)).flatMap FlpD.toks) text)
    (ok : ∀ f ∈ hs.map (·.1), f.area.Ok) (h : List.Forall₂ Held hs es) : ∀ e ∈ es, Sound e := by
  intro e he
  obtain ⟨i, hi, rfl⟩ := List.getElem_of_mem he
  have hl := h.length_eq
  have hx := List.Forall₂.get h (by omega : i < hs.length) hi
  simp only [List.get_eq_getElem] at hx
  have hm : hs[i].1 ∈ hs.map (·.1) := List.mem_map.mpr ⟨hs[i], List.getElem_mem _, rfl⟩
  have hid : Tok.ident hs[i].1.id ∈ (hs.map (·.1)).flatMap FlpD.toks := List.mem_flatMap.mpr ⟨_, hm, by simp [FlpD.toks]⟩
  obtain ⟨n1, n2⟩ := written_ident hw hid
  refine ⟨hx.id ▸ n1, hx.id ▸ n2, ?_, (held_queue hx).1⟩
  rw [hx.rects]
  have := ok _ hm
  generalize hs[i].1.area = a at this
  cases a with
  | one => simp [rectsOf]
  | many rs => exact this

/-- **C73** The floorplan file that the library writes at any time after reading one is accepted, if every element has power values left: it has
the same elements in the same order, the rectangles rounded to one digit after the point, the pending values rounded to three. -/
theorem C73_floorplan {hs : List History} {text : List Char} (hw : Written flpLex ((hs.map (·.1)).flatMap FlpD.toks) text)
    (hf : parseFlpFile (scan flpRules .initial text) = some (hs.map (·.1))) {es : List Element} (hl : List.Forall₂ Held hs es)
    (hp : ∀ h ∈ hs, pending h ≠ []) :
    ∃ t fs, floorplanText es = some t ∧ parseFlpFile (scan flpRules .initial t) = some fs ∧
      List.Forall₂ (fun h f => Reread h.1.id (rectsOf h.1.area) (pending h) f) hs fs := by
  obtain ⟨⟨hne, ok⟩, -⟩ := C66_floorplan.mp hf
  have hsound := held_sound hw ok hl
  have hne' : es ≠ [] := by rintro rfl; cases hl; exact hne rfl
  have hp' : ∀ e ∈ es, toList e.powers ≠ [] := by
    intro e he
    obtain ⟨i, hi, rfl⟩ := List.getElem_of_mem he
    have hlen := hl.length_eq
    have hx := List.Forall₂.get hl (by omega : i < hs.length) hi
    simp only [List.get_eq_getElem] at hx
    rw [(held_queue hx).2]
    exact hp _ (List.getElem_mem _)
  obtain ⟨t, fs', h1, h2, h3⟩ := floorplan_reread hne' hsound hp'
  refine ⟨t, fs', h1, h2, ?_⟩
  rw [List.forall₂_iff_get]
  have l1 := hl.length_eq
  have l2 := h3.length_eq
  refine ⟨by omega, fun i hi hi' => ?_⟩
  have a := List.Forall₂.get hl hi (by omega)
  have b := List.Forall₂.get h3 (by omega) hi'
  rw [a.id, a.rects, (held_queue a).2] at b
  exact b

/-- **C73 (violated)** It is refused if an element has none: because its declaration gives none, or because the simulation has used them up. -/
theorem C73_no_values_violated {hs : List History} {text : List Char} (hw : Written flpLex ((hs.map (·.1)).flatMap FlpD.toks) text)
    (hf : parseFlpFile (scan flpRules .initial text) = some (hs.map (·.1))) {es : List Element} (hl : List.Forall₂ Held hs es)
    {h : History} (hh : h ∈ hs) (hp : pending h = []) :
    ∃ t, floorplanText es = some t ∧ parseFlpFile (scan flpRules .initial t) = none := by
  obtain ⟨⟨hne, ok⟩, -⟩ := C66_floorplan.mp hf
  obtain ⟨i, hi, rfl⟩ := List.getElem_of_mem hh
  have hlen := hl.length_eq
  have hx := List.Forall₂.get hl hi (by omega : i < es.length)
  simp only [List.get_eq_getElem] at hx
  exact floorplan_refused (held_sound hw ok hl) (e := es[i]) (List.getElem_mem _) ((held_queue hx).2.trans hp)

/-- Whatever is read in the file that is written is the same, but for the material and the discretization of an element, which are not
written. -/
structure Same (f f' : FlpD) : Prop where
  id : f'.id = f.id
  area : f'.area = .many (rectsOf f.area)
  powers : f'.powers = f.powers

/-- The numbers of the file have few enough digits: one after the point in lengths, three in power values. -/
structure Short (f : FlpD) : Prop where
  rects : ∀ r ∈ rectsOf f.area, Decimals 1 r.x ∧ Decimals 1 r.y ∧ Decimals 1 r.length ∧ Decimals 1 r.width
  powers : ∀ p ∈ f.powers, Decimals 3 p

theorem forall₂_exact {n : Nat} : ∀ {l l' : List ℚ}, List.Forall₂ (IsRounded n) l l' → (∀ q ∈ l, Decimals n q) → l' = l
  | _, _, .nil, _ => rfl
  | _, _, .cons h t, d => by rw [h.exact (d _ (by simp)), forall₂_exact t fun q hq => d q (by simp [hq])]

theorem rects_exact : ∀ {l l' : List (Rect ℚ)}, List.Forall₂ (fun r r' => IsRounded 1 r.x r'.x ∧ IsRounded 1 r.y r'.y ∧ IsRounded 1 r.length r'.length ∧
    IsRounded 1 r.width r'.width) l l' → (∀ r ∈ l, Decimals 1 r.x ∧ Decimals 1 r.y ∧ Decimals 1 r.length ∧ Decimals 1 r.width) → l' = l
  | _, _, .nil, _ => rfl
  | _, _, @List.Forall₂.cons _ _ _ r r' _ _ h t, d => by
    have hd := d r (by simp)
    rw [rects_exact t fun q hq => d q (by simp [hq])]
    congr 1
    cases r with
    | mk x y l w =>
      cases r' with
      | mk x' y' l' w' => rw [Rect.mk.injEq]; exact ⟨h.1.exact hd.1, h.2.1.exact hd.2.1, h.2.2.1.exact hd.2.2.1, h.2.2.2.exact hd.2.2.2⟩

theorem specRun_puts : ∀ (ps l : List ℚ), (specRun l (ps.map Op.put)).2 = l ++ ps
  | [], l => by simp [specRun]
  | p :: ps, l => by simp [specRun, specRun_puts ps]

/-- **C73** A floorplan file that gives power values for every element, in numbers with few enough digits, read and written again before
anything is simulated, is read as the same elements, rectangles and power values. -/
theorem C73_round_trip {fs : List FlpD} {text : List Char} (hw : Written flpLex (fs.flatMap FlpD.toks) text) (hf : parseFlpFile (scan flpRules .initial text) = some fs)
    (hp : ∀ f ∈ fs, f.powers ≠ []) (hs : ∀ f ∈ fs, Short f) {es : List Element} (hl : List.Forall₂ (fun f e => Held (f, []) e) fs es) :
    ∃ t fs', floorplanText es = some t ∧ parseFlpFile (scan flpRules .initial t) = some fs' ∧ List.Forall₂ Same fs fs' := by
  have hm : (fs.map fun f => ((f, []) : History)).map (·.1) = fs := by rw [List.map_map]; exact List.map_id _
  have hpend : ∀ f : FlpD, pending (f, []) = f.powers := fun f => by rw [pending, opsOf, List.append_nil, specRun_puts]; rfl
  obtain ⟨t, fs', h1, h2, h3⟩ := C73_floorplan (hs := fs.map fun f => (f, [])) (by rw [hm]; exact hw) (by rw [hm]; exact hf) (es := es)
    (by rw [List.forall₂_map_left_iff]; exact hl) (by
      intro h hh
      obtain ⟨f, hf, rfl⟩ := List.mem_map.mp hh
      rw [hpend]
      exact hp f hf)
  refine ⟨t, fs', h1, h2, ?_⟩
  rw [List.forall₂_map_left_iff] at h3
  rw [List.forall₂_iff_get] at h3 ⊢
  refine ⟨h3.1, fun i hi hi' => ?_⟩
  have hr := h3.2 i hi hi'
  have hsh := hs _ (List.get_mem fs ⟨i, hi⟩)
  rw [hpend] at hr
  obtain ⟨rs, g1, g2⟩ := hr.area
  exact ⟨hr.id, by rw [g1, rects_exact g2 hsh.rects], forall₂_exact hr.powers hsh.powers⟩

/-- **C73 (violated)** The material and the discretization of an element are lost: in what is read from the file that was written, no element
has one. -/
theorem C73_division_lost_violated {hs : List History} {text : List Char} (hw : Written flpLex ((hs.map (·.1)).flatMap FlpD.toks) text)
    (hf : parseFlpFile (scan flpRules .initial text) = some (hs.map (·.1))) {es : List Element} (hl : List.Forall₂ Held hs es) {t : List Char}
    (ht : floorplanText es = some t) {fs' : List FlpD} (h' : parseFlpFile (scan flpRules .initial t) = some fs') : ∀ f ∈ fs', ∃ rs, f.area = .many rs := by
  by_cases hp : ∀ h ∈ hs, pending h ≠ []
  · obtain ⟨t', gs, h1, h2, h3⟩ := C73_floorplan hw hf hl hp
    rw [ht] at h1
    cases h1
    rw [h'] at h2
    cases h2
    intro f hf
    obtain ⟨i, hi, rfl⟩ := List.getElem_of_mem hf
    have hlen := h3.length_eq
    obtain ⟨rs, hr, -⟩ := (List.Forall₂.get h3 (by omega : i < hs.length) hi).area
    exact ⟨rs, hr⟩
  · have : ∃ h ∈ hs, pending h = [] := by
      by_contra hc
      exact hp fun e he hx => hc ⟨e, he, hx⟩
    obtain ⟨e, he, hx⟩ := this
    obtain ⟨t', h1, h2⟩ := C73_no_values_violated hw hf hl he hx
    rw [ht] at h1
    cases h1
    rw [h'] at h2
    cases h2

/-! ### Stacks -/

theorem scan_tok {R : State → List Rule} {L : Lexicon} (h : Implements R L) {t : Tok} {w s : List Char} (hs : Spells L t w) (he : Ends t s) :
    scan R .initial (w ++ s) = t :: scan R .initial s := by
  cases hs with
  | sym hc => rw [List.singleton_append, scan_sym h hc]
  | kw hk => rw [scan_kw h hk he]
  | num hn => rw [scan_num h (numeral_double hn) he, atof_text _ hn]
  | ident hi hk => rw [scan_ident h hi hk he]
  | path hp hq => rw [scan_path h hp hq]

theorem material_scan {m : String × Material ℚ} (hi : IsName m.1.toList) (hk : m.1 ∉ stackLex.kws) : ∃ a b, ∀ r, ∃ r',
    scan stackRules .initial (materialText m ++ r) = kw "material" :: .ident m.1 :: colon :: kw "thermal" :: kw "conductivity" :: .num a :: .num b :: r' := by
  obtain ⟨a, ha⟩ := scientific_spells stackLex (n := 4) (by omega) m.2.kx
  obtain ⟨b, hb⟩ := scientific_spells stackLex (n := 4) (by omega) m.2.ky
  refine ⟨a, b, fun r => ?_⟩
  have e1 : "material ".toList = "material".toList ++ [' '] := by decide
  have e2 : " :\n   thermal conductivity     ".toList = ' ' :: ':' :: '\n' :: ' ' :: ' ' :: ' ' :: ("thermal".toList ++ (' ' :: ("conductivity".toList ++
    [' ', ' ', ' ', ' ', ' ']))) := by decide
  have e3 : "     ".toList = [' ', ' ', ' ', ' ', ' '] := by decide
  have hsp : ∀ s, scan stackRules .initial (' ' :: s) = scan stackRules .initial s := fun s => scan_space stack_implements (by decide) s
  have hnl : ∀ s, scan stackRules .initial ('\n' :: s) = scan stackRules .initial s := fun s => scan_space stack_implements (by decide) s
  unfold materialText
  rw [e1, e2, e3]
  simp only [List.append_assoc, List.cons_append, List.nil_append]
  rw [scan_kw stack_implements (by decide) (stops_cons (by decide)), hsp, scan_ident stack_implements hi hk (stops_cons (by decide)), hsp,
    scan_sym stack_implements (by decide), hnl, hsp, hsp, hsp, scan_kw stack_implements (by decide) (stops_cons (by decide)), hsp,
    scan_kw stack_implements (by decide) (stops_cons (by decide)), hsp, hsp, hsp, hsp, hsp,
    scan_tok stack_implements ha (stops_cons (by decide)), hsp, hsp, hsp, hsp, hsp, scan_tok stack_implements hb (stops_cons (by decide))]
  exact ⟨_, rfl⟩

/-- **C73 (violated)** A stack file written by the library is never accepted, whatever the stack: the three conductivities of a material are
written without the commas that the syntax asks for. -/
theorem C73_stack_violated {s : StackD} {text : List Char} (hw : Written stackLex s.toks text) (hs : parseStackFile (scan stackRules .initial text) = some s)
    (rest : List Char) : parseStackFile (scan stackRules .initial (stackText (s.mats.map fun m => (m.id, FE.material m)) rest)) = none := by
  obtain ⟨ok, -⟩ := C66_stack.mp hs
  obtain ⟨m, ms, hm⟩ := List.exists_cons_of_ne_nil ok.mats
  obtain ⟨n1, n2⟩ := written_ident hw (n := m.id) (by simp [StackD.toks, hm, MatD.toks])
  obtain ⟨a, b, hab⟩ := material_scan (m := (m.id, FE.material m)) n1 n2
  rw [hm, List.map_cons, stackText, List.flatMap_cons, List.append_assoc]
  obtain ⟨r', hr⟩ := hab ((ms.map fun m => (m.id, FE.material m)).flatMap materialText ++ rest)
  rw [hr]
  cases hx : parseStackFile _ with
  | none => rfl
  | some s' =>
    obtain ⟨ok', e⟩ := C66_stack.mp hx
    obtain ⟨m', ms', hm'⟩ := List.exists_cons_of_ne_nil ok'.mats
    rw [StackD.toks, hm', List.flatMap_cons, MatD.toks] at e
    cases hc : m'.cond <;> rw [hc] at e <;> simp [CondD.toks, semi, comma] at e

end Verif.Print

namespace Verif.Print
open Verif.PowersQueue Verif.TG Verif.Scan Verif.Gram

/-! ### Examples -/

/-- `printf` on some values, as glibc prints them. -/
example : fixed 1 (1 / 4) = "0.2".toList ∧ fixed 1 (35 / 100) = "0.4".toList ∧ fixed 3 (2 / 3) = "0.667".toList ∧ fixed 1 (-1 / 100) = "-0.0".toList ∧
    fixed 1 1999.96 = "2000.0".toList ∧ scientific 4 0 = "0.0000e+00".toList ∧ scientific 4 0.00013 = "1.3000e-04".toList ∧
    scientific 4 999996 = "1.0000e+06".toList ∧ scientific 4 (-1628000000000) = "-1.6280e+12".toList := by decide +kernel

/-- What is written for a small floorplan. -/
example : floorplanText [⟨"A", [⟨0, 0, 1000, 500.5⟩], ⟨10, 2, 9, 1, some [3, 0, 0, 0, 0, 0, 0, 0, 0, 1.5]⟩⟩] =
    some "A:\n   rectangle (0.0, 0.0, 1000.0, 500.5 ) ;\n\n   power values  1.500, 3.000  ;\n\n\n".toList := by decide +kernel

/-- A floorplan of two elements: one rectangle with a discretization, and two rectangles. -/
def exFlp : List FlpD := [⟨"A", .one 0 0 10 20 none (some (2, 2)), [1, 2]⟩, ⟨"B", .many [⟨10, 0, 5, 5⟩, ⟨15, 5, 5, 5⟩], [3]⟩]

/-- A digit is a number. -/
theorem spell1 (L : Lexicon) (a : Fin 10) : Spells L (.num (a.val : ℚ)) [dig a] := by
  have := Spells.num (L := L) (n := ⟨.no, [a], none, none⟩) ⟨by simp, by simp, by simp⟩
  simpa [Numeral.value, Numeral.text, Sign.text, Sign.apply, natOf, fracVal, expVal, fracText, expText] using this

/-- Two digits are a number. -/
theorem spell2 (L : Lexicon) (a b : Fin 10) : Spells L (.num (10 * a.val + b.val : ℚ)) [dig a, dig b] := by
  have := Spells.num (L := L) (n := ⟨.no, [a, b], none, none⟩) ⟨by simp, by simp, by simp⟩
  simpa [Numeral.value, Numeral.text, Sign.text, Sign.apply, natOf, fracVal, expVal, fracText, expText] using this

/-- Any list of tokens that can be spelled can be written, with a space after each. -/
theorem spaced (L : Lexicon) : ∀ {ts : List Tok}, (∀ t ∈ ts, ∃ w, Spells L t w) → ∃ s, Written L ts s
  | [], _ => ⟨[], .nil⟩
  | t :: ts, h => by
    obtain ⟨w, hw⟩ := h t (by simp)
    obtain ⟨s, hs⟩ := spaced L (ts := ts) fun x hx => h x (by simp [hx])
    refine ⟨w ++ ' ' :: s, .tok hw ?_ (w_blank rfl hs)⟩
    cases t <;> first | trivial | exact stops_cons (by decide)

theorem exFlp_written : ∃ text, Written flpLex (exFlp.flatMap FlpD.toks) text := by
  apply spaced
  have n0 := spell1 flpLex 0
  have n1 := spell1 flpLex 1
  have n2 := spell1 flpLex 2
  have n3 := spell1 flpLex 3
  have n5 := spell1 flpLex 5
  have n10 := spell2 flpLex 1 0
  have n15 : Spells flpLex (.num 15) [dig 1, dig 5] := by
    have := spell2 flpLex 1 5
    have e : (10 * ((1 : Fin 10).val : ℚ) + ((5 : Fin 10).val : ℚ)) = 15 := by
      rw [show (1 : Fin 10).val = 1 from rfl, show (5 : Fin 10).val = 5 from rfl]
      norm_num
    rw [e] at this
    exact this
  have n20 := spell2 flpLex 2 0
  norm_num at n0 n1 n2 n3 n5 n10 n20
  have kws : ∀ k ∈ flpLex.kws, ∃ w, Spells flpLex (.kw k) w := fun k hk => ⟨_, .kw hk⟩
  have sy : ∀ c ∈ flpLex.syms, ∃ w, Spells flpLex (.sym c) w := fun c hc => ⟨_, .sym hc⟩
  intro t ht
  simp only [exFlp, List.flatMap_cons, List.flatMap_nil, FlpD.toks, AreaD.toks, rectToks, powersToks, optToks, List.append_nil, List.cons_append, List.nil_append,
    List.mem_cons, List.not_mem_nil, or_false, kw, semi, colon, comma] at ht
  rcases ht with rfl | rfl | rfl | rfl | rfl | rfl | rfl | rfl | rfl | rfl | rfl | rfl | rfl | rfl | rfl | rfl | rfl | rfl | rfl | rfl | rfl | rfl | rfl | rfl | rfl | rfl | rfl | rfl | rfl | rfl | rfl | rfl | rfl | rfl | rfl | rfl | rfl | rfl | rfl | rfl | rfl | rfl | rfl | rfl | rfl | rfl | rfl | rfl | rfl | rfl | rfl | rfl | rfl | rfl | rfl | rfl | rfl | rfl | rfl | rfl | rfl
  all_goals first
    | exact kws _ (by decide)
    | exact sy _ (by decide)
    | exact ⟨_, .ident ⟨_, _, rfl, by decide, by decide⟩ (by decide)⟩
    | exact ⟨_, n0⟩ | exact ⟨_, n1⟩ | exact ⟨_, n2⟩ | exact ⟨_, n3⟩ | exact ⟨_, n5⟩ | exact ⟨_, n10⟩ | exact ⟨_, n15⟩ | exact ⟨_, n20⟩

theorem exFlp_file : ∃ text, Written flpLex (exFlp.flatMap FlpD.toks) text ∧ parseFlpFile (scan flpRules .initial text) = some exFlp := by
  obtain ⟨text, h⟩ := exFlp_written
  refine ⟨text, h, ?_⟩
  rw [scan_written flp_implements h, C66_floorplan]
  exact ⟨⟨by simp [exFlp], by simp [exFlp, AreaD.Ok]⟩, rfl⟩

/-- The elements in memory when the file has been read, and after a step that takes one value of each. -/
def exLoaded : List Element :=
  [⟨"A", [⟨0, 0, 10, 20⟩], ⟨10, 2, 0, 2, some [1, 2, 0, 0, 0, 0, 0, 0, 0, 0]⟩⟩,
   ⟨"B", [⟨10, 0, 5, 5⟩, ⟨15, 5, 5, 5⟩], ⟨10, 1, 0, 1, some [3, 0, 0, 0, 0, 0, 0, 0, 0, 0]⟩⟩]
def exStepped : List Element :=
  [⟨"A", [⟨0, 0, 10, 20⟩], ⟨10, 1, 1, 2, some [1, 2, 0, 0, 0, 0, 0, 0, 0, 0]⟩⟩,
   ⟨"B", [⟨10, 0, 5, 5⟩, ⟨15, 5, 5, 5⟩], ⟨10, 0, 1, 1, some [3, 0, 0, 0, 0, 0, 0, 0, 0, 0]⟩⟩]

theorem exLoaded_held : List.Forall₂ (fun f e => Held (f, []) e) exFlp exLoaded :=
  .cons ⟨rfl, rfl, by simp [opsOf, Fits], ⟨[], by decide +kernel⟩⟩ (.cons ⟨rfl, rfl, by simp [opsOf, Fits], ⟨[], by decide +kernel⟩⟩ .nil)

/-- The hypotheses of `C73_round_trip` are met by a small file with a discretization and with an element of two rectangles. -/
example : ∃ text, Written flpLex (exFlp.flatMap FlpD.toks) text ∧ parseFlpFile (scan flpRules .initial text) = some exFlp ∧
    (∀ f ∈ exFlp, f.powers ≠ []) ∧ (∀ f ∈ exFlp, Short f) ∧ List.Forall₂ (fun f e => Held (f, []) e) exFlp exLoaded := by
  obtain ⟨text, h1, h2⟩ := exFlp_file
  have int : ∀ (n : Nat) (z : ℤ), Decimals n (z : ℚ) := fun n z => ⟨z * 10 ^ n, by push_cast; field_simp⟩
  have i0 := int 1 0; have i5 := int 1 5; have i10 := int 1 10; have i15 := int 1 15; have i20 := int 1 20
  have j1 := int 3 1; have j2 := int 3 2; have j3 := int 3 3
  push_cast at i0 i5 i10 i15 i20 j1 j2 j3
  refine ⟨text, h1, h2, by simp [exFlp], ?_, exLoaded_held⟩
  intro f hf
  simp only [exFlp, List.mem_cons, List.not_mem_nil, or_false] at hf
  rcases hf with rfl | rfl
  · exact ⟨by simp [rectsOf, i0, i10, i20], by simp [j1, j2]⟩
  · exact ⟨by simp [rectsOf, i0, i5, i10, i15], by simp [j3]⟩

/-- Those of `C73_no_values_violated` are met by the same file after one step: the second element has no values left, the first has one. -/
example : List.Forall₂ Held (exFlp.map fun f => ((f, [Op.get]) : History)) exStepped ∧ ((exFlp.map fun f => ((f, [Op.get]) : History)).map (·.1)) = exFlp ∧
    (exFlp.map fun f => pending (f, [Op.get])) = [[2], []] :=
  ⟨.cons ⟨rfl, rfl, by simp [opsOf, Fits], ⟨[1], by decide +kernel⟩⟩ (.cons ⟨rfl, rfl, by simp [opsOf, Fits], ⟨[3], by decide +kernel⟩⟩ .nil), rfl,
    by decide +kernel⟩

/-- The hypotheses of `C73_stack_violated` are met by the example of C66. -/
example : ∃ text, Written stackLex exampleDoc.toks text ∧ parseStackFile (scan stackRules .initial text) = some exampleDoc := by
  obtain ⟨text, h⟩ := written_exists (L := stackLex) (ts := exampleDoc.toks) fun t ht => writable_of (exampleDoc_writable t ht) (known_stack exampleDoc t ht)
  exact ⟨text, h, by rw [scan_written stack_implements h]; exact C66_stack.mpr ⟨⟨by decide, by decide, by decide⟩, rfl⟩⟩

end Verif.Print
