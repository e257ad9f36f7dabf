import Verif.Lemmas.Scanner
import Mathlib.Tactic.FieldSimp
import Mathlib.Tactic.NormNum
import Mathlib.Tactic.FinCases
import Mathlib.Algebra.Order.BigOperators.Group.List

set_option linter.unusedSimpArgs false
set_option linter.unusedVariables false
set_option linter.unusedSectionVars false

/-! ## C65: how the text of an input file is read

Input files are free-format: words, numbers, names, paths and punctuation, separated by white space and comments. -/

namespace Verif.Scan

/-! ### Specification -/

/-- What can be written in a kind of input file: punctuation, keywords, and whether there are paths. -/
structure Lexicon where
  syms : List Char
  kws : List String
  paths : Bool

/-- The stack file. -/
def stackLex : Lexicon := ⟨['(', ')', ',', '.', ':', ';'], 
  ["2rm", "4rm", "average", "bottom", "capacity", "cell", "channel", "chip", "coefficient", "conductivity",
   "coolant", "darcy", "diameter", "die", "dimensions", "distribution", "discretization", "final", "first",
   "floorplan", "flow", "gradient", "heat", "height", "incoming", "initial", "inline", "last", "layer", "layout",
   "length", "material", "maximum", "microchannel", "minimum", "non-uniform", "numofcores", "output", "pin",
   "pinfin", "pitch", "pluggable", "plugin", "Pmap", "rate", "side", "sink", "slot", "solver", "source", "spreader",
   "stack", "staggered", "state", "steady", "step", "T", "temperature", "Tcoolant", "Tflp", "Tflpel", "thermal",
   "to", "top", "Tmap", "T3d", "transfer", "transient", "velocity", "volumetric", "wall", "width", "true", "false"], true⟩
/-- Floorplan files. -/
def flpLex : Lexicon := ⟨['(', ')', ':', ',', ';'], 
  ["dimension", "position", "power", "rectangle", "values", "discretization", "material"], false⟩
/-- Layout files. -/
def layLex : Lexicon := ⟨['(', ')', ':', ',', ';'], 
  ["capacity", "conductivity", "dimension", "heat", "material", "position", "rectangle", "thermal", "volumetric"], false⟩

/-- The character of a digit. -/
def dig (d : Fin 10) : Char := ['0', '1', '2', '3', '4', '5', '6', '7', '8', '9'].get d

/-- The number written by digits. -/
def natOf (ds : List (Fin 10)) : Nat := ds.foldl (fun n d => 10 * n + d.val) 0

/-- A sign that may be missing. -/
inductive Sign where
  | no | plus | minus
def Sign.text : Sign → List Char
  | .no => []
  | .plus => ['+']
  | .minus => ['-']
def Sign.apply {K : Type} [Neg K] : Sign → K → K
  | .minus, x => - x
  | _, x => x

/-- A number as written: sign, digits, digits after a point, exponent (`e` or `E`). -/
structure Numeral where
  sign : Sign
  int : List (Fin 10)
  frac : Option (List (Fin 10))
  exp : Option (Bool × Sign × List (Fin 10))

/-- There are digits before the point, after a point, and in the exponent. -/
structure Numeral.Ok (n : Numeral) : Prop where
  int : n.int ≠ []
  frac : ∀ f, n.frac = some f → f ≠ []
  exp : ∀ e, n.exp = some e → e.2.2 ≠ []

/-- How the part after the point and the exponent are written. -/
def fracText : Option (List (Fin 10)) → List Char
  | none => []
  | some f => '.' :: f.map dig
def expText : Option (Bool × Sign × List (Fin 10)) → List Char
  | none => []
  | some (up, s, x) => (if up then 'E' else 'e') :: (s.text ++ x.map dig)

/-- What they mean. -/
def fracVal : Option (List (Fin 10)) → ℚ
  | none => 0
  | some f => (natOf f : ℚ) / 10 ^ f.length
def expVal : Option (Bool × Sign × List (Fin 10)) → Int
  | none => 0
  | some (_, s, x) => s.apply (natOf x : Int)

/-- How a number is written. -/
def Numeral.text (n : Numeral) : List Char := n.sign.text ++ (n.int.map dig ++ (fracText n.frac ++ expText n.exp))

/-- What it means. -/
def Numeral.value (n : Numeral) : ℚ := n.sign.apply (((natOf n.int : ℚ) + fracVal n.frac) * (10 : ℚ) ^ expVal n.exp)

/-- A name: a letter, then letters, digits and underscores. -/
def IsName (s : List Char) : Prop := ∃ c u, s = c :: u ∧ c.isAlpha = true ∧ ∀ x ∈ u, x = '_' ∨ x.isAlphanum = true

/-- How a token is written. -/
inductive Spells (L : Lexicon) : Tok → List Char → Prop
  | sym {c} : c ∈ L.syms → Spells L (.sym c) [c]
  | kw {k} : k ∈ L.kws → Spells L (.kw k) k.toList
  | num {n : Numeral} : n.Ok → Spells L (.num n.value) n.text
  | ident {s : String} : IsName s.toList → s ∉ L.kws → Spells L (.ident s) s.toList
  | path {s : String} : L.paths = true → '"' ∉ s.toList → Spells L (.path s) ('"' :: (s.toList ++ ['"']))

/-- The characters words and numbers are made of. -/
def wordy (c : Char) : Bool := c.isAlphanum || c == '_' || c == '.' || c == '+' || c == '-'

/-- Words and numbers must not run into what follows; punctuation and paths may. -/
def Ends : Tok → List Char → Prop
  | .sym _, _ => True
  | .path _, _ => True
  | _, s => ∀ c ∈ s.head?, wordy c = false

/-- White space: space, tab, new line, vertical tab, form feed and carriage return. -/
def blank (c : Char) : Bool := [' ', '\t', '\n', '\x0b', '\x0c', '\r'].contains c

/-- White space and comments. A comment of several lines has no `*/` inside, and no two stars next to each other inside or before the
`*/` that closes it. -/
inductive Gap : List Char → Prop
  | space {c} : blank c = true → Gap [c]
  | line {b} : '\n' ∉ b → Gap (['/', '/'] ++ b ++ ['\n'])
  | block {b} : ¬ ['*', '/'] <:+: b → ¬ ['*', '*'] <:+: b ++ ['*'] → Gap (['/', '*'] ++ b ++ ['*', '/'])

/-- A text that consists of the given tokens, with gaps between them. -/
inductive Written (L : Lexicon) : List Tok → List Char → Prop
  | nil : Written L [] []
  | gap {g ts s} : Gap g → Written L ts s → Written L ts (g ++ s)
  | tok {t w ts s} : Spells L t w → Ends t s → Written L ts s → Written L (t :: ts) (w ++ s)

/-! ### Characters -/

theorem dig_digit (d : Fin 10) : isDigit (dig d) = true := by revert d; decide
theorem dig_val (d : Fin 10) : (dig d).toNat - '0'.toNat = d.val := by revert d; decide

theorem digit_char {c : Char} (h : isDigit c = true) : c.toNat < 58 ∧ 48 ≤ c.toNat := by
  unfold isDigit at h
  simp only [decide_eq_true_eq, Char.le_def] at h
  obtain ⟨h1, h2⟩ := h
  have h1' : 48 ≤ c.val.toNat := h1
  have h2' : c.val.toNat ≤ 57 := h2
  exact ⟨by show c.val.toNat < 58; omega, h1'⟩

theorem digit_not_alpha {c : Char} (h : isDigit c = true) : isAlpha c = false := by
  obtain ⟨h1, h2⟩ := digit_char h
  unfold isAlpha
  rw [decide_eq_false_iff_not]
  simp only [Char.le_def]
  have e : c.val.toNat = c.toNat := rfl
  rintro (⟨h3, _⟩ | ⟨h3, _⟩)
  · have h3' : 97 ≤ c.val.toNat := h3
    omega
  · have h3' : 65 ≤ c.val.toNat := h3
    omega

theorem natOf_map (ds : List (Fin 10)) : digitsVal (ds.map dig) = natOf ds := by
  unfold digitsVal natOf
  rw [List.foldl_map]
  congr 1
  funext n d
  rw [dig_val]

theorem natOf_append (a b : List (Fin 10)) : natOf (a ++ b) = natOf a * 10 ^ b.length + natOf b := by
  unfold natOf
  rw [List.foldl_append]
  generalize a.foldl (fun n d => 10 * n + d.val) 0 = m
  have key : ∀ m k, b.foldl (fun n d => 10 * n + d.val) (m + k) = m * 10 ^ b.length + b.foldl (fun n d => 10 * n + d.val) k := by
    induction b with
    | nil => intro m k; simp
    | cons d b ih =>
      intro m k
      simp only [List.foldl_cons, List.length_cons]
      rw [show 10 * (m + k) + d.val = 10 * m + (10 * k + d.val) by ring, ih]
      ring
  have := key m 0
  simpa using this

theorem takeWhile_digits (ds : List (Fin 10)) {s : List Char} (h : ∀ c ∈ s.head?, isDigit c = false) :
    (ds.map dig ++ s).takeWhile isDigit = ds.map dig ∧ (ds.map dig ++ s).dropWhile isDigit = s := by
  induction ds with
  | nil =>
    cases s with
    | nil => simp
    | cons c s =>
      have := h c (by simp)
      simp [List.takeWhile, List.dropWhile, this]
  | cons d ds ih => simp [List.takeWhile, List.dropWhile, dig_digit, ih]

theorem takeSign_text (sg : Sign) {ds : List (Fin 10)} (hd : ds ≠ []) (s : List Char) :
    takeSign (sg.text ++ (ds.map dig ++ s)) = ((match sg with | .minus => true | _ => false), ds.map dig ++ s) := by
  cases ds with
  | nil => exact absurd rfl hd
  | cons d ds =>
    have h1 : dig d ≠ '-' := (by decide : ∀ d, dig d ≠ '-') d
    have h2 : dig d ≠ '+' := (by decide : ∀ d, dig d ≠ '+') d
    cases sg <;> simp [Sign.text, takeSign, h1, h2]

theorem expText_head (ex : Option (Bool × Sign × List (Fin 10))) : ∀ c ∈ (expText ex).head?, isDigit c = false ∧ c ≠ '.' := by
  intro c hc
  rcases ex with - | ⟨up, s, x⟩
  · simp [expText] at hc
  · simp only [expText, List.head?_cons, Option.mem_def, Option.some.injEq] at hc
    subst hc
    cases up <;> decide

theorem takeExp_text {ex : Option (Bool × Sign × List (Fin 10))} (h : ∀ e, ex = some e → e.2.2 ≠ []) : takeExp (expText ex) = expVal ex := by
  rcases ex with - | ⟨up, s, x⟩
  · rfl
  · have hx : x ≠ [] := h _ rfl
    have ht := takeSign_text s hx []
    simp only [List.append_nil] at ht
    have hc : ((if up then 'E' else 'e') = 'e' ∨ (if up then 'E' else 'e') = 'E') := by cases up <;> simp
    simp only [expText, expVal, takeExp, if_pos hc, ht, natOf_map]
    cases s <;> rfl

theorem takeFrac_text (fr : Option (List (Fin 10))) (ex : Option (Bool × Sign × List (Fin 10))) :
    takeFrac (fracText fr ++ expText ex) = ((fr.getD []).map dig, expText ex) := by
  cases fr with
  | none =>
    simp only [fracText, List.nil_append, Option.getD_none, List.map_nil]
    generalize he : expText ex = E
    cases E with
    | nil => rfl
    | cons c E =>
      have := (expText_head ex c (by rw [he]; simp)).2
      simp only [takeFrac, if_neg this]
  | some f =>
    simp only [fracText, List.cons_append, takeFrac, if_pos, Option.getD_some]
    have := takeWhile_digits f (fun c hc => (expText_head ex c hc).1)
    rw [this.1, this.2]

theorem fracText_head (fr : Option (List (Fin 10))) (ex : Option (Bool × Sign × List (Fin 10))) :
    ∀ c ∈ (fracText fr ++ expText ex).head?, isDigit c = false := by
  intro c hc
  cases fr with
  | none => exact (expText_head ex c (by simpa [fracText] using hc)).1
  | some f =>
    simp only [fracText, List.cons_append, List.head?_cons, Option.mem_def, Option.some.injEq] at hc
    subst hc; decide

/-- The number read is the number written. -/
theorem atof_text (n : Numeral) (h : n.Ok) : atof n.text = n.value := by
  obtain ⟨sg, int, frac, ex⟩ := n
  have h1 := takeSign_text sg h.int (fracText frac ++ expText ex)
  have h2 := takeWhile_digits int (fracText_head frac ex)
  have h3 := takeFrac_text frac ex
  have h4 := takeExp_text h.exp
  simp only at h1 h4
  unfold atof Numeral.text Numeral.value
  simp only [h1, h2.1, h2.2, h3, h4]
  have hval : (digitsVal (int.map dig ++ (frac.getD []).map dig) : ℚ) * (10 : ℚ) ^ (expVal ex - (((frac.getD []).map dig).length : Int)) =
      ((natOf int : ℚ) + fracVal frac) * (10 : ℚ) ^ expVal ex := by
    cases frac with
    | none => simp [natOf_map, fracVal]
    | some f =>
      simp only [← List.map_append, natOf_map, List.length_map, Option.getD_some, fracVal]
      rw [natOf_append, zpow_sub₀ (by norm_num), zpow_natCast]
      push_cast
      field_simp
  rw [hval]
  cases sg <;> simp [Sign.apply]

/-! ### Scanners -/

def ruleNum : Rule := ⟨reDouble, .tok tokNum⟩
def ruleInt : Rule := ⟨reSInt, .tok tokNum⟩
def ruleIdent : Rule := ⟨reIdent, .tok tokIdent⟩
def rulePath : Rule := ⟨rePath, .tok tokPath⟩

/-- The rules are those of a lexicon, keywords before the other words. -/
structure Implements (R : State → List Rule) (L : Lexicon) : Prop where
  one : R .oneLine = oneLineRules
  multi : R .multi = multiRules
  init : ∃ A B, R .initial = A ++ (L.kws.map ruleKw ++ B) ∧ (∀ r, r ∈ A ↔ r = ruleSpace ∨ (∃ c ∈ L.syms, r = ruleSym c) ∨ r ∈ ruleComments) ∧
    (∀ r ∈ B, r = ruleNum ∨ r = ruleInt ∨ r = ruleIdent ∨ (L.paths = true ∧ r = rulePath)) ∧ ruleNum ∈ B ∧ ruleIdent ∈ B ∧ (L.paths = true → rulePath ∈ B)
  syms : ∀ c ∈ L.syms, isAlnum c = false ∧ isSpace c = false ∧ c ≠ '"' ∧ c ≠ '/' ∧ c ≠ '+' ∧ c ≠ '-' ∧ c ≠ '_'
  kws : ∀ k ∈ L.kws, k.toList ≠ [] ∧ (∀ c ∈ k.toList, isAlnum c = true ∨ c = '-') ∧ (∀ c ∈ k.toList.head?, isAlnum c = true) ∧ reDouble.test k.toList = false

theorem stack_implements : Implements stackRules stackLex := by
  refine ⟨rfl, rfl, ⟨[ruleSpace] ++ stackLex.syms.map ruleSym ++ ruleComments, [ruleNum, ruleIdent, rulePath], ?_, ?_, ?_, by simp, by simp, by simp⟩, ?_, ?_⟩
  · simp only [stackRules, stackLex, List.append_assoc]; rfl
  · intro r; simp only [List.mem_append, List.mem_singleton, List.mem_map, or_assoc]
    constructor
    · rintro (h | ⟨c, hc, rfl⟩ | h)
      · exact Or.inl h
      · exact Or.inr (Or.inl ⟨c, hc, rfl⟩)
      · exact Or.inr (Or.inr h)
    · rintro (h | ⟨c, hc, rfl⟩ | h)
      · exact Or.inl h
      · exact Or.inr (Or.inl ⟨c, hc, rfl⟩)
      · exact Or.inr (Or.inr h)
  · intro r hr
    simp only [List.mem_cons, List.not_mem_nil, or_false] at hr
    rcases hr with h | h | h
    · exact Or.inl h
    · exact Or.inr (Or.inr (Or.inl h))
    · exact Or.inr (Or.inr (Or.inr ⟨rfl, h⟩))
  · decide
  · decide +kernel

theorem flp_like {R : State → List Rule} {ks : List String} (h1 : R .oneLine = oneLineRules) (h2 : R .multi = multiRules)
    (h3 : R .initial = [ruleSpace] ++ ruleComments ++ ['(', ')', ':', ',', ';'].map ruleSym ++ ks.map ruleKw ++ [ruleIdent, ruleInt, ruleNum])
    (h4 : ∀ k ∈ ks, k.toList ≠ [] ∧ (∀ c ∈ k.toList, isAlnum c = true ∨ c = '-') ∧ (∀ c ∈ k.toList.head?, isAlnum c = true) ∧ reDouble.test k.toList = false) :
    Implements R ⟨['(', ')', ':', ',', ';'], ks, false⟩ := by
  refine ⟨h1, h2, ⟨[ruleSpace] ++ ruleComments ++ ['(', ')', ':', ',', ';'].map ruleSym, [ruleIdent, ruleInt, ruleNum], ?_, ?_, ?_, by simp, by simp, by simp⟩, ?_, h4⟩
  · rw [h3]; simp only [List.append_assoc]
  · intro r; simp only [List.mem_append, List.mem_singleton, List.mem_map, or_assoc]
    constructor
    · rintro (h | h | ⟨c, hc, rfl⟩)
      · exact Or.inl h
      · exact Or.inr (Or.inr h)
      · exact Or.inr (Or.inl ⟨c, hc, rfl⟩)
    · rintro (h | ⟨c, hc, rfl⟩ | h)
      · exact Or.inl h
      · exact Or.inr (Or.inr ⟨c, hc, rfl⟩)
      · exact Or.inr (Or.inl h)
  · intro r hr
    simp only [List.mem_cons, List.not_mem_nil, or_false] at hr
    rcases hr with h | h | h
    · exact Or.inr (Or.inr (Or.inl h))
    · exact Or.inr (Or.inl h)
    · exact Or.inl h
  · show ∀ c ∈ ['(', ')', ':', ',', ';'], _
    decide

theorem flp_implements : Implements flpRules flpLex := flp_like rfl rfl rfl (by decide +kernel)
theorem lay_implements : Implements layRules layLex := flp_like rfl rfl rfl (by decide +kernel)

variable {R : State → List Rule} {L : Lexicon}

/-- Every rule is one of the known ones. -/
theorem mem_initial (h : Implements R L) {r : Rule} (hr : r ∈ R .initial) :
    r = ruleSpace ∨ (∃ c ∈ L.syms, r = ruleSym c) ∨ r ∈ ruleComments ∨ (∃ k ∈ L.kws, r = ruleKw k) ∨ r = ruleNum ∨ r = ruleInt ∨ r = ruleIdent ∨
      (L.paths = true ∧ r = rulePath) := by
  obtain ⟨A, B, e, hA, hB, -⟩ := h.init
  rw [e, List.mem_append, List.mem_append, List.mem_map] at hr
  rcases hr with hr | ⟨k, hk, rfl⟩ | hr
  · rcases (hA r).1 hr with h | h | h
    · exact Or.inl h
    · exact Or.inr (Or.inl h)
    · exact Or.inr (Or.inr (Or.inl h))
  · exact Or.inr (Or.inr (Or.inr (Or.inl ⟨k, hk, rfl⟩)))
  · exact Or.inr (Or.inr (Or.inr (Or.inr (hB r hr))))

theorem sint_chars {s : List Char} (h : Re.Lang reSInt s) : s ≠ [] ∧ ∀ c ∈ s, isDigit c = true ∨ c = '+' ∨ c = '-' := by
  obtain ⟨sg, ds, rfl, h1, h2, h3⟩ := lang_sint.1 h
  refine ⟨by simp [h2], ?_⟩
  intro c hc
  rcases List.mem_append.1 hc with hc | hc
  · rcases h1 with rfl | rfl | rfl
    · simp at hc
    · simp at hc; simp [hc]
    · simp at hc; simp [hc]
  · exact Or.inl (h3 c hc)

theorem sint_head {s : List Char} (h : Re.Lang reSInt s) : ∀ c ∈ s.head?, isDigit c = true ∨ c = '+' ∨ c = '-' := by
  intro c hc
  exact (sint_chars h).2 c (List.mem_of_mem_head? hc)

theorem double_chars {s : List Char} (h : Re.Lang reDouble s) :
    (∀ c ∈ s, isDigit c = true ∨ c = '+' ∨ c = '-' ∨ c = '.' ∨ c = 'e' ∨ c = 'E') ∧ s ≠ [] ∧ ∀ c ∈ s.head?, isDigit c = true ∨ c = '+' ∨ c = '-' := by
  obtain ⟨a, b, c, rfl, h1, h2, h3⟩ := lang_double.1 h
  have hne := (sint_chars h1).1
  refine ⟨?_, by simp [hne], ?_⟩
  · intro x hx
    rw [List.mem_append, List.mem_append] at hx
    rcases hx with hx | hx | hx
    · rcases (sint_chars h1).2 x hx with h | h | h <;> simp [h]
    · rcases h2 with rfl | ⟨f, rfl, -, hf⟩
      · simp at hx
      · rcases List.mem_cons.1 hx with rfl | hx
        · simp
        · simp [hf x hx]
    · rcases h3 with rfl | ⟨e, y, rfl, he, hy⟩
      · simp at hx
      · rcases List.mem_cons.1 hx with rfl | hx
        · rcases he with rfl | rfl <;> simp
        · rcases (sint_chars hy).2 x hx with h | h | h <;> simp [h]
  · intro x hx
    cases a with
    | nil => exact absurd rfl hne
    | cons d a =>
      simp only [List.cons_append, List.head?_cons, Option.mem_def, Option.some.injEq] at hx
      subst hx
      exact sint_head h1 _ (by simp)

theorem isSpace_eq (c : Char) : isSpace c = blank c := by
  by_cases h : c.val.toNat < 128
  · have key : ∀ n : Fin 128, isSpace (Char.ofNat n.val) = blank (Char.ofNat n.val) := by decide +kernel
    have := key ⟨c.toNat, h⟩
    rwa [show Char.ofNat c.toNat = c from Char.ofNat_toNat c] at this
  · have e : ∀ a b : Char, (a ≤ b) = (a.val.toNat ≤ b.val.toNat) := fun a b => rfl
    have n : ∀ d : Char, d.val.toNat < 128 → c ≠ d := fun d hd he => h (by rw [he]; exact hd)
    have h1 : isSpace c = false := by
      unfold isSpace
      rw [decide_eq_false_iff_not]
      rintro (h2 | ⟨-, h2⟩)
      · exact n ' ' (by decide) h2
      · rw [e] at h2
        exact h (lt_of_le_of_lt h2 (by decide))
    have h2 : blank c = false := by
      unfold blank
      simp [n ' ' (by decide), n '\t' (by decide), n '\n' (by decide), n '\x0b' (by decide), n '\x0c' (by decide), n '\r' (by decide)]
    rw [h1, h2]
theorem isAlpha_eq (c : Char) : isAlpha c = c.isAlpha := by
  have e : ∀ a b : Char, (a ≤ b) = (a.val ≤ b.val) := fun a b => rfl
  unfold isAlpha Char.isAlpha Char.isUpper Char.isLower
  simp only [e, Bool.decide_or, Bool.decide_and, ge_iff_le]
  rw [Bool.or_comm]
theorem isDigit_eq (c : Char) : isDigit c = c.isDigit := by
  unfold isDigit Char.isDigit
  rw [Bool.decide_and]
  rfl
theorem isAlnum_eq (c : Char) : isAlnum c = c.isAlphanum := by
  unfold isAlnum Char.isAlphanum
  rw [isAlpha_eq, isDigit_eq]
theorem lang_name {s : List Char} : Re.Lang reIdent s ↔ IsName s := by
  rw [lang_ident]
  simp only [IsName, isAlpha_eq, isAlnum_eq]

/-- The characters of a word or number rule are wordy. -/
theorem alpha_wordy {c : Char} (h : isAlpha c = true) : wordy c = true := by simp [wordy, ← isAlnum_eq, isAlnum, h]
theorem digit_wordy {c : Char} (h : isDigit c = true) : wordy c = true := by simp [wordy, ← isAlnum_eq, isAlnum, h]
theorem alnum_wordy {c : Char} (h : isAlnum c = true) : wordy c = true := by simp [wordy, ← isAlnum_eq, h]

theorem double_wordy {s : List Char} (h : Re.Lang reDouble s) : ∀ c ∈ s, wordy c = true := by
  intro c hc
  rcases (double_chars h).1 c hc with h | rfl | rfl | rfl | rfl | rfl
  · exact digit_wordy h
  all_goals decide

theorem ident_wordy {s : List Char} (h : Re.Lang reIdent s) : ∀ c ∈ s, wordy c = true := by
  obtain ⟨c, u, rfl, h1, h2⟩ := lang_ident.1 h
  intro x hx
  rcases List.mem_cons.1 hx with rfl | hx
  · exact alpha_wordy h1
  · rcases h2 x hx with rfl | h
    · decide
    · exact alnum_wordy h

theorem sint_wordy {s : List Char} (h : Re.Lang reSInt s) : ∀ c ∈ s, wordy c = true := by
  intro c hc
  rcases (sint_chars h).2 c hc with h | rfl | rfl
  · exact digit_wordy h
  all_goals decide

theorem kw_wordy (h : Implements R L) {k : String} (hk : k ∈ L.kws) : ∀ c ∈ k.toList, wordy c = true := by
  intro c hc
  rcases (h.kws k hk).2.1 c hc with h | rfl
  · exact alnum_wordy h
  · decide

/-- Nothing longer than a word is matched where the word ends. -/
theorem word_ends (h : Implements R L) {w s : List Char} {c0 : Char} {w' : List Char} (hw : w = c0 :: w') (h1 : isSpace c0 = false) (h2 : c0 ≠ '"') (h3 : c0 ≠ '/')
    (hs : ∀ c ∈ s.head?, wordy c = false) :
    ∀ u v, s = u ++ v → u ≠ [] → ∀ r ∈ R .initial, r.re.test (w ++ u) = false := by
  intro u v hu hne r hr
  obtain ⟨d, u', rfl⟩ := List.exists_cons_of_ne_nil hne
  have hd : wordy d = false := hs d (by rw [hu]; simp)
  rw [test_false]
  have hmem : d ∈ w ++ d :: u' := by simp
  subst hw
  intro hl
  rcases mem_initial h hr with rfl | ⟨c, hc, rfl⟩ | hr | ⟨k, hk, rfl⟩ | rfl | rfl | rfl | ⟨-, rfl⟩
  · have := lang_starSet.1 hl c0 (by simp)
    rw [h1] at this; simp at this
  · have := lang_chr.1 hl; simp at this
  · simp only [ruleComments, List.mem_cons, List.not_mem_nil, or_false] at hr
    rcases hr with rfl | rfl
    · have := lang_lit.1 hl; simp at this; exact h3 this.1
    · have := lang_lit.1 hl; simp at this; exact h3 this.1
  · have e := lang_lit.1 hl
    rw [e] at hmem
    rw [kw_wordy h hk d hmem] at hd; simp at hd
  · rw [double_wordy hl d hmem] at hd; simp at hd
  · rw [sint_wordy hl d hmem] at hd; simp at hd
  · rw [ident_wordy hl d hmem] at hd; simp at hd
  · obtain ⟨x, e, -⟩ := lang_path.1 hl
    simp at e; exact h2 e.1

theorem alnum_facts {c : Char} (h : isAlnum c = true) : isSpace c = false ∧ c ≠ '"' ∧ c ≠ '/' := by
  refine ⟨?_, ?_, ?_⟩
  · unfold isAlnum isAlpha isDigit at h
    unfold isSpace
    rw [decide_eq_false_iff_not]
    simp only [Bool.or_eq_true, decide_eq_true_eq, Char.le_def] at h
    simp only [Char.le_def]
    rintro (rfl | ⟨g1, g2⟩)
    · revert h; decide
    · have g2' : c.val.toNat ≤ 13 := g2
      rcases h with (⟨a, -⟩ | ⟨a, -⟩) | ⟨a, -⟩
      · have a' : 97 ≤ c.val.toNat := a
        omega
      · have a' : 65 ≤ c.val.toNat := a
        omega
      · have a' : 48 ≤ c.val.toNat := a
        omega
  · rintro rfl; revert h; decide
  · rintro rfl; revert h; decide

/-- A keyword is read as such. -/
theorem scan_kw (h : Implements R L) {k : String} (hk : k ∈ L.kws) {s : List Char} (hs : ∀ c ∈ s.head?, wordy c = false) :
    scan R .initial (k.toList ++ s) = .kw k :: scan R .initial s := by
  obtain ⟨hne, hch, hhd, hdb⟩ := h.kws k hk
  obtain ⟨c0, w', hw⟩ := List.exists_cons_of_ne_nil hne
  have h0 : isAlnum c0 = true := hhd c0 (by rw [hw]; simp)
  obtain ⟨f1, f2, f3⟩ := alnum_facts h0
  obtain ⟨A, B, e, hA, -⟩ := h.init
  have hm : (R .initial).find? (fun r => r.re.test k.toList) = some (ruleKw k) := by
    rw [e, List.find?_append]
    have hnone : A.find? (fun r => r.re.test k.toList) = none := by
      rw [List.find?_eq_none]
      intro r hr
      rw [Bool.not_eq_true, test_false]
      intro hl
      rcases (hA r).1 hr with rfl | ⟨c, hc, rfl⟩ | hr
      · have := lang_starSet.1 hl c0 (by rw [hw]; simp)
        rw [f1] at this; simp at this
      · have e1 := lang_chr.1 hl
        have := h.syms c hc
        rw [hw, List.cons.injEq] at e1
        rw [e1.1] at h0
        rw [this.1] at h0; simp at h0
      · simp only [ruleComments, List.mem_cons, List.not_mem_nil, or_false] at hr
        rcases hr with rfl | rfl
        · have e1 := lang_lit.1 hl; rw [hw, List.cons.injEq] at e1; exact f3 e1.1
        · have e1 := lang_lit.1 hl; rw [hw, List.cons.injEq] at e1; exact f3 e1.1
    rw [hnone, Option.none_or, List.find?_append]
    have hsome : (L.kws.map ruleKw).find? (fun r => r.re.test k.toList) = some (ruleKw k) := by
      rw [List.find?_map]
      have : (L.kws.find? ((fun r : Rule => r.re.test k.toList) ∘ ruleKw)) = some k := by
        have hp : ((fun r : Rule => r.re.test k.toList) ∘ ruleKw) = fun k' => decide (k' = k) := by
          funext k'
          simp only [Function.comp]
          by_cases hkk : k' = k
          · subst hkk; simp only [decide_true]; exact (test_iff _ _).2 (lang_lit.2 rfl)
          · rw [decide_eq_false hkk, test_false]
            intro hl
            have := lang_lit.1 hl
            exact hkk (String.toList_inj.1 this.symm)
        rw [hp]
        obtain ⟨k'', hk''⟩ : ∃ k'', L.kws.find? (fun k' => decide (k' = k)) = some k'' := by
          rw [← Option.isSome_iff_exists, List.find?_isSome]; exact ⟨k, hk, by simp⟩
        have := List.find?_some hk''
        simp at this
        rw [hk'', this]
      rw [this]; rfl
    rw [hsome]; rfl
  have := scan_step hne hm (word_ends h hw f1 f2 f3 hs)
  rw [this]
  simp [ruleKw, tokKw]

theorem ident_not_double {s : List Char} (h : Re.Lang reIdent s) : ¬ Re.Lang reDouble s := by
  obtain ⟨c, u, rfl, h1, -⟩ := lang_ident.1 h
  intro hd
  rcases (double_chars hd).2.2 c (by simp) with h | rfl | rfl
  · rw [digit_not_alpha h] at h1; simp at h1
  all_goals (revert h1; decide)

theorem ident_not_sint {s : List Char} (h : Re.Lang reIdent s) : ¬ Re.Lang reSInt s := by
  obtain ⟨c, u, rfl, h1, -⟩ := lang_ident.1 h
  intro hd
  rcases (sint_chars hd).2 c (by simp) with h | rfl | rfl
  · rw [digit_not_alpha h] at h1; simp at h1
  all_goals (revert h1; decide)

/-- A name is read as such. -/
theorem scan_ident (h : Implements R L) {w : String} (hi : IsName w.toList) (hk : w ∉ L.kws) {s : List Char} (hs : ∀ c ∈ s.head?, wordy c = false) :
    scan R .initial (w.toList ++ s) = .ident w :: scan R .initial s := by
  have hli : Re.Lang reIdent w.toList := lang_name.2 hi
  obtain ⟨c0, w', hw, h0, -⟩ := hi
  rw [← isAlpha_eq] at h0
  have h0' : isAlnum c0 = true := by simp [isAlnum, h0]
  obtain ⟨f1, f2, f3⟩ := alnum_facts h0'
  have hne : w.toList ≠ [] := by rw [hw]; simp
  obtain ⟨A, B, e, -, -, -, hB, -⟩ := h.init
  have hin : ruleIdent ∈ R .initial := by rw [e]; simp [hB]
  obtain ⟨r, hr⟩ : ∃ r, (R .initial).find? (fun r => r.re.test w.toList) = some r := by
    rw [← Option.isSome_iff_exists, List.find?_isSome]; exact ⟨ruleIdent, hin, (test_iff _ _).2 hli⟩
  have hm := List.mem_of_find?_eq_some hr
  have hl := List.find?_some hr
  simp only [test_iff] at hl
  have hact : r = ruleIdent := by
    rcases mem_initial h hm with rfl | ⟨c, hc, rfl⟩ | hm | ⟨k, hk', rfl⟩ | rfl | rfl | rfl | ⟨-, rfl⟩
    · have := lang_starSet.1 hl c0 (by rw [hw]; simp)
      rw [f1] at this; simp at this
    · have e1 := lang_chr.1 hl
      have := h.syms c hc
      rw [hw, List.cons.injEq] at e1
      rw [e1.1] at h0'
      rw [this.1] at h0'; simp at h0'
    · simp only [ruleComments, List.mem_cons, List.not_mem_nil, or_false] at hm
      rcases hm with rfl | rfl
      · have e1 := lang_lit.1 hl; rw [hw, List.cons.injEq] at e1; exact absurd e1.1 f3
      · have e1 := lang_lit.1 hl; rw [hw, List.cons.injEq] at e1; exact absurd e1.1 f3
    · exact absurd (String.toList_inj.1 (lang_lit.1 hl) ▸ hk') hk
    · exact absurd hl (ident_not_double hli)
    · exact absurd hl (ident_not_sint hli)
    · rfl
    · obtain ⟨x, e1, -⟩ := lang_path.1 hl
      rw [hw, List.cons.injEq] at e1; exact absurd e1.1 f2
  have := scan_step hne hr (word_ends h hw f1 f2 f3 hs)
  rw [this, hact]
  simp [ruleIdent, tokIdent]

theorem sint_of {sg : Sign} {ds : List (Fin 10)} (h : ds ≠ []) : Re.Lang reSInt (sg.text ++ ds.map dig) := by
  refine lang_sint.2 ⟨sg.text, ds.map dig, rfl, ?_, by simpa using h, ?_⟩
  · cases sg <;> simp [Sign.text]
  · intro c hc
    obtain ⟨d, -, rfl⟩ := List.mem_map.1 hc
    exact dig_digit d

theorem numeral_double {n : Numeral} (h : n.Ok) : Re.Lang reDouble n.text := by
  refine lang_double.2 ⟨n.sign.text ++ n.int.map dig, fracText n.frac, expText n.exp, ?_, sint_of h.int, ?_, ?_⟩
  · simp [Numeral.text]
  · cases hf : n.frac with
    | none => exact Or.inl rfl
    | some f =>
      refine Or.inr ⟨f.map dig, rfl, by simpa using h.frac f hf, ?_⟩
      intro c hc
      obtain ⟨d, -, rfl⟩ := List.mem_map.1 hc
      exact dig_digit d
  · rcases he : n.exp with - | ⟨up, sg, x⟩
    · exact Or.inl rfl
    · refine Or.inr ⟨if up then 'E' else 'e', sg.text ++ x.map dig, rfl, ?_, sint_of (h.exp _ he)⟩
      cases up <;> simp

/-- A number is read as such. -/
theorem scan_num (h : Implements R L) {w : List Char} (hd : Re.Lang reDouble w) {s : List Char} (hs : ∀ c ∈ s.head?, wordy c = false) :
    scan R .initial (w ++ s) = .num (atof w) :: scan R .initial s := by
  obtain ⟨hch, hne, hhd⟩ := double_chars hd
  obtain ⟨c0, w', hw⟩ := List.exists_cons_of_ne_nil hne
  have h0 := hhd c0 (by rw [hw]; simp)
  have hfacts : isSpace c0 = false ∧ c0 ≠ '"' ∧ c0 ≠ '/' := by
    rcases h0 with h0 | rfl | rfl
    · exact alnum_facts (by simp [isAlnum, h0])
    · decide
    · decide
  obtain ⟨f1, f2, f3⟩ := hfacts
  obtain ⟨A, B, e, -, -, hB, -⟩ := h.init
  have hin : ruleNum ∈ R .initial := by rw [e]; simp [hB]
  obtain ⟨r, hr⟩ : ∃ r, (R .initial).find? (fun r => r.re.test w) = some r := by
    rw [← Option.isSome_iff_exists, List.find?_isSome]; exact ⟨ruleNum, hin, (test_iff _ _).2 hd⟩
  have hm := List.mem_of_find?_eq_some hr
  have hl := List.find?_some hr
  simp only [test_iff] at hl
  have hact : r = ruleNum ∨ r = ruleInt := by
    rcases mem_initial h hm with rfl | ⟨c, hc, rfl⟩ | hm | ⟨k, hk', rfl⟩ | rfl | rfl | rfl | ⟨-, rfl⟩
    · have := lang_starSet.1 hl c0 (by rw [hw]; simp)
      rw [f1] at this; simp at this
    · have e1 := lang_chr.1 hl
      have hsy := h.syms c hc
      rw [hw, List.cons.injEq] at e1
      rw [e1.1] at h0
      rcases h0 with h0 | h0 | h0
      · have := hsy.1; simp [isAlnum, h0] at this
      · exact absurd h0 hsy.2.2.2.2.1
      · exact absurd h0 hsy.2.2.2.2.2.1
    · simp only [ruleComments, List.mem_cons, List.not_mem_nil, or_false] at hm
      rcases hm with rfl | rfl
      · have e1 := lang_lit.1 hl; rw [hw, List.cons.injEq] at e1; exact absurd e1.1 f3
      · have e1 := lang_lit.1 hl; rw [hw, List.cons.injEq] at e1; exact absurd e1.1 f3
    · have e1 := lang_lit.1 hl
      have := (h.kws k hk').2.2.2
      rw [test_false, ← e1] at this
      exact absurd hd this
    · exact Or.inl rfl
    · exact Or.inr rfl
    · exact absurd hd (ident_not_double hl)
    · obtain ⟨x, e1, -⟩ := lang_path.1 hl
      rw [hw, List.cons.injEq] at e1; exact absurd e1.1 f2
  have := scan_step hne hr (word_ends h hw f1 f2 f3 hs)
  rw [this]
  rcases hact with rfl | rfl <;> rfl

/-- Punctuation. -/
theorem scan_sym (h : Implements R L) {c : Char} (hc : c ∈ L.syms) (s : List Char) : scan R .initial (c :: s) = .sym c :: scan R .initial s := by
  obtain ⟨g1, g2, g3, g4, g5, g6, g7⟩ := h.syms c hc
  obtain ⟨A, B, e, hA, -⟩ := h.init
  have hin : ruleSym c ∈ R .initial := by
    rw [e, List.mem_append]; exact Or.inl ((hA _).2 (Or.inr (Or.inl ⟨c, hc, rfl⟩)))
  have hnd : isDigit c = false ∧ isAlpha c = false := by
    simp only [isAlnum, Bool.or_eq_false_iff] at g1; exact ⟨g1.2, g1.1⟩
  have hno : ∀ u, ∀ r ∈ R .initial, Re.Lang r.re (c :: u) → u = [] ∧ r = ruleSym c := by
    intro u r hr hl
    rcases mem_initial h hr with rfl | ⟨c', hc', rfl⟩ | hr | ⟨k, hk', rfl⟩ | rfl | rfl | rfl | ⟨-, rfl⟩
    · have := lang_starSet.1 hl c (by simp)
      rw [g2] at this; simp at this
    · have e1 := lang_chr.1 hl
      simp only [List.cons.injEq] at e1
      exact ⟨e1.2, by rw [e1.1]⟩
    · simp only [ruleComments, List.mem_cons, List.not_mem_nil, or_false] at hr
      rcases hr with rfl | rfl
      · have e1 := lang_lit.1 hl; rw [List.cons.injEq] at e1; exact absurd e1.1 g4
      · have e1 := lang_lit.1 hl; rw [List.cons.injEq] at e1; exact absurd e1.1 g4
    · have e1 := lang_lit.1 hl
      have := (h.kws k hk').2.2.1 c (by rw [← e1]; simp)
      rw [g1] at this; simp at this
    · rcases (double_chars hl).2.2 c (by simp) with h | h | h
      · rw [hnd.1] at h; simp at h
      · exact absurd h g5
      · exact absurd h g6
    · rcases sint_head hl c (by simp) with h | h | h
      · rw [hnd.1] at h; simp at h
      · exact absurd h g5
      · exact absurd h g6
    · obtain ⟨d, x, e1, h1, -⟩ := lang_ident.1 hl
      rw [List.cons.injEq] at e1
      rw [← e1.1, hnd.2] at h1; simp at h1
    · obtain ⟨x, e1, -⟩ := lang_path.1 hl
      rw [List.cons.injEq] at e1; exact absurd e1.1 g3
  obtain ⟨r, hr⟩ : ∃ r, (R .initial).find? (fun r => r.re.test [c]) = some r := by
    rw [← Option.isSome_iff_exists, List.find?_isSome]; exact ⟨ruleSym c, hin, (test_iff _ _).2 (lang_chr.2 rfl)⟩
  have hl := List.find?_some hr
  simp only [test_iff] at hl
  have hact := (hno [] r (List.mem_of_find?_eq_some hr) hl).2
  have := scan_step (w := [c]) (t := s) (by simp) hr (by
    intro u v hu hne r hr
    rw [test_false]
    intro hl
    exact hne (hno u r hr hl).1)
  rw [List.singleton_append] at this
  rw [this, hact]
  rfl

/-- A path. -/
theorem scan_path (h : Implements R L) (hp : L.paths = true) {w : String} (hq : '"' ∉ w.toList) (s : List Char) :
    scan R .initial ('"' :: (w.toList ++ ['"']) ++ s) = .path w :: scan R .initial s := by
  obtain ⟨A, B, e, -, -, -, -, hB⟩ := h.init
  have hin : rulePath ∈ R .initial := by rw [e]; simp [hB hp]
  have hno : ∀ u, ∀ r ∈ R .initial, Re.Lang r.re ('"' :: (w.toList ++ '"' :: u)) → u = [] ∧ r = rulePath := by
    intro u r hr hl
    rcases mem_initial h hr with rfl | ⟨c', hc', rfl⟩ | hr | ⟨k, hk', rfl⟩ | rfl | rfl | rfl | ⟨-, rfl⟩
    · have := lang_starSet.1 hl '"' (by simp)
      exact absurd this (by decide)
    · have e1 := lang_chr.1 hl
      simp at e1
    · simp only [ruleComments, List.mem_cons, List.not_mem_nil, or_false] at hr
      rcases hr with rfl | rfl
      · have e1 := lang_lit.1 hl; simp at e1
      · have e1 := lang_lit.1 hl; simp at e1
    · have e1 := lang_lit.1 hl
      have := (h.kws k hk').2.2.1 '"' (by rw [← e1]; simp)
      exact absurd this (by decide)
    · have := double_wordy hl '"' (by simp)
      exact absurd this (by decide)
    · have := sint_wordy hl '"' (by simp)
      exact absurd this (by decide)
    · have := ident_wordy hl '"' (by simp)
      exact absurd this (by decide)
    · obtain ⟨x, e1, hx⟩ := lang_path.1 hl
      refine ⟨?_, rfl⟩
      rw [List.cons.injEq] at e1
      obtain ⟨-, e1⟩ := e1
      by_contra hu
      obtain ⟨u', d, rfl⟩ : ∃ u' d, u = u' ++ [d] := ⟨_, _, (List.dropLast_append_getLast hu).symm⟩
      have e2 : (w.toList ++ '"' :: u') ++ [d] = x ++ ['"'] := by simpa using e1
      have e3 := (List.append_inj' e2 rfl).1
      exact hx (by rw [← e3]; simp)
  have hl0 : Re.Lang rePath ('"' :: (w.toList ++ ['"'])) := lang_path.2 ⟨w.toList, rfl, hq⟩
  obtain ⟨r, hr⟩ : ∃ r, (R .initial).find? (fun r => r.re.test ('"' :: (w.toList ++ ['"']))) = some r := by
    rw [← Option.isSome_iff_exists, List.find?_isSome]; exact ⟨rulePath, hin, (test_iff _ _).2 hl0⟩
  have hl := List.find?_some hr
  simp only [test_iff] at hl
  have hact := (hno [] r (List.mem_of_find?_eq_some hr) hl).2
  have := scan_step (w := '"' :: (w.toList ++ ['"'])) (t := s) (by simp) hr (by
    intro u v hu hne r hr
    rw [test_false]
    intro hl
    exact hne (hno u r hr (by simpa using hl)).1)
  rw [this, hact]
  simp [rulePath, tokPath]

/-! ### Gaps -/

theorem space_not_other (h : Implements R L) {c : Char} (hc : isSpace c = true) {u : List Char} {r : Rule} (hr : r ∈ R .initial) (hl : Re.Lang r.re (c :: u)) : r = ruleSpace := by
  have hw : wordy c = false := by
    unfold isSpace at hc
    simp only [decide_eq_true_eq, Char.le_def] at hc
    rcases hc with rfl | ⟨h1, h2⟩
    · decide
    · have h1' : 9 ≤ c.val.toNat := h1
      have h2' : c.val.toNat ≤ 13 := h2
      have : ∀ n : Fin 14, 9 ≤ n.val → wordy (Char.ofNat n.val) = false := by decide
      have e : c = Char.ofNat c.val.toNat := (Char.ofNat_toNat c).symm
      rw [e]
      exact this ⟨c.val.toNat, by omega⟩ h1'
  have hne : ∀ d, isSpace d = false → c ≠ d := by rintro d hd rfl; rw [hd] at hc; simp at hc
  rcases mem_initial h hr with rfl | ⟨c', hc', rfl⟩ | hr | ⟨k, hk', rfl⟩ | rfl | rfl | rfl | ⟨-, rfl⟩
  · rfl
  · have e1 := lang_chr.1 hl
    simp only [List.cons.injEq] at e1
    exact absurd e1.1 (hne _ (h.syms c' hc').2.1)
  · simp only [ruleComments, List.mem_cons, List.not_mem_nil, or_false] at hr
    rcases hr with rfl | rfl
    · have e1 := lang_lit.1 hl; rw [List.cons.injEq] at e1; exact absurd e1.1 (hne _ (by decide))
    · have e1 := lang_lit.1 hl; rw [List.cons.injEq] at e1; exact absurd e1.1 (hne _ (by decide))
  · have e1 := lang_lit.1 hl
    have := kw_wordy h hk' c (by rw [← e1]; simp)
    rw [hw] at this; simp at this
  · have := double_wordy hl c (by simp)
    rw [hw] at this; simp at this
  · have := sint_wordy hl c (by simp)
    rw [hw] at this; simp at this
  · have := ident_wordy hl c (by simp)
    rw [hw] at this; simp at this
  · obtain ⟨x, e1, -⟩ := lang_path.1 hl
    rw [List.cons.injEq] at e1; exact absurd e1.1 (hne _ (by decide))

/-- A run of white space is skipped at once. -/
theorem scan_run (h : Implements R L) {w s : List Char} (hw : ∀ c ∈ w, isSpace c = true) (hs : ∀ c ∈ s.head?, isSpace c = false) :
    scan R .initial (w ++ s) = scan R .initial s := by
  cases w with
  | nil => rfl
  | cons c w =>
    have hc := hw c (by simp)
    obtain ⟨A, B, e, hA, -⟩ := h.init
    have hin : ruleSpace ∈ R .initial := by rw [e, List.mem_append]; exact Or.inl ((hA _).2 (Or.inl rfl))
    obtain ⟨r, hr⟩ : ∃ r, (R .initial).find? (fun r => r.re.test (c :: w)) = some r := by
      rw [← Option.isSome_iff_exists, List.find?_isSome]; exact ⟨ruleSpace, hin, (test_iff _ _).2 (lang_starSet.2 hw)⟩
    have hl := List.find?_some hr
    simp only [test_iff] at hl
    have hact := space_not_other h hc (List.mem_of_find?_eq_some hr) hl
    have := scan_step (w := c :: w) (t := s) (by simp) hr (by
      intro u v hu hne r hr
      rw [test_false]
      intro hl
      obtain rfl := space_not_other h hc hr hl
      obtain ⟨d, u', rfl⟩ := List.exists_cons_of_ne_nil hne
      have h1 := hs d (by rw [hu]; simp)
      have h2 := lang_starSet.1 hl d (by simp)
      rw [h1] at h2; simp at h2)
    rw [this, hact]
    rfl

theorem scan_space (h : Implements R L) {c : Char} (hc : isSpace c = true) (s : List Char) : scan R .initial (c :: s) = scan R .initial s := by
  have hsplit : s = s.takeWhile isSpace ++ s.dropWhile isSpace := (List.takeWhile_append_dropWhile).symm
  have hhead : ∀ d ∈ (s.dropWhile isSpace).head?, isSpace d = false := by
    intro d hd
    have := List.head?_dropWhile_not isSpace s
    rw [Option.mem_def.1 hd] at this
    simpa using this
  have hall : ∀ d ∈ s.takeWhile isSpace, isSpace d = true := fun d hd => (List.all_eq_true.1 List.all_takeWhile) d hd
  have h1 : scan R .initial s = scan R .initial (s.dropWhile isSpace) := by
    conv_lhs => rw [hsplit]
    exact scan_run h hall hhead
  have h2 : scan R .initial (c :: s) = scan R .initial (s.dropWhile isSpace) := by
    conv_lhs => rw [hsplit, ← List.cons_append]
    exact scan_run h (by intro d hd; rcases List.mem_cons.1 hd with rfl | hd; exacts [hc, hall d hd]) hhead
  rw [h1, h2]

/-- A slash that begins a comment. -/
theorem scan_slash (h : Implements R L) {c : Char} {st : State} (hc : (c = '/' ∧ st = .oneLine) ∨ (c = '*' ∧ st = .multi)) (s : List Char) :
    scan R .initial ('/' :: c :: s) = scan R st s := by
  obtain ⟨A, B, e, hA, -⟩ := h.init
  have hno : ∀ u, ∀ r ∈ R .initial, Re.Lang r.re ('/' :: u) → r ∈ ruleComments := by
    intro u r hr hl
    rcases mem_initial h hr with rfl | ⟨c', hc', rfl⟩ | hr | ⟨k, hk', rfl⟩ | rfl | rfl | rfl | ⟨-, rfl⟩
    · exact absurd (lang_starSet.1 hl '/' (by simp)) (by decide)
    · have e1 := lang_chr.1 hl
      simp only [List.cons.injEq] at e1
      exact absurd e1.1.symm (h.syms c' hc').2.2.2.1
    · exact hr
    · have e1 := lang_lit.1 hl
      exact absurd (kw_wordy h hk' '/' (by rw [← e1]; simp)) (by decide)
    · exact absurd (double_wordy hl '/' (by simp)) (by decide)
    · exact absurd (sint_wordy hl '/' (by simp)) (by decide)
    · exact absurd (ident_wordy hl '/' (by simp)) (by decide)
    · obtain ⟨x, e1, -⟩ := lang_path.1 hl
      simp at e1
  have hin : (⟨.lit ['/', c], .goto st⟩ : Rule) ∈ R .initial := by
    rw [e, List.mem_append]
    refine Or.inl ((hA _).2 (Or.inr (Or.inr ?_)))
    rcases hc with ⟨rfl, rfl⟩ | ⟨rfl, rfl⟩ <;> simp [ruleComments]
  obtain ⟨r, hr⟩ : ∃ r, (R .initial).find? (fun r => r.re.test ['/', c]) = some r := by
    rw [← Option.isSome_iff_exists, List.find?_isSome]; exact ⟨_, hin, (test_iff _ _).2 (lang_lit.2 rfl)⟩
  have hl := List.find?_some hr
  simp only [test_iff] at hl
  have hact : r.act = .goto st := by
    have := hno [c] r (List.mem_of_find?_eq_some hr) hl
    simp only [ruleComments, List.mem_cons, List.not_mem_nil, or_false] at this
    rcases this with rfl | rfl
    · have e1 := lang_lit.1 hl
      simp at e1; subst e1
      rcases hc with ⟨-, rfl⟩ | ⟨h, -⟩
      · rfl
      · exact absurd h (by decide)
    · have e1 := lang_lit.1 hl
      simp at e1; subst e1
      rcases hc with ⟨h, -⟩ | ⟨-, rfl⟩
      · exact absurd h (by decide)
      · rfl
  have := scan_step (w := ['/', c]) (t := s) (by simp) hr (by
    intro u v hu hne r hr
    rw [test_false]
    intro hl
    have := hno (c :: u) r hr hl
    simp only [ruleComments, List.mem_cons, List.not_mem_nil, or_false] at this
    rcases this with rfl | rfl
    · have e1 := lang_lit.1 hl; simp at e1; exact hne e1.2
    · have e1 := lang_lit.1 hl; simp at e1; exact hne e1.2)
  rw [show '/' :: c :: s = ['/', c] ++ s from rfl, this, hact]

/-- Inside a comment of one line. -/
theorem scan_line (h : Implements R L) {b : List Char} (hb : '\n' ∉ b) (s : List Char) : scan R .oneLine (b ++ '\n' :: s) = scan R .initial s := by
  induction b with
  | nil =>
    have hm : (R .oneLine).find? (fun r => r.re.test ['\n']) = some ⟨.chr '\n', .goto .initial⟩ := by
      rw [h.one]; rfl
    have := scan_step (rules := R) (w := ['\n']) (t := s) (by simp) hm (by
      intro u v hu hne r hr
      rw [h.one] at hr
      rw [test_false]
      intro hl
      simp only [oneLineRules, List.mem_cons, List.not_mem_nil, or_false] at hr
      rcases hr with rfl | rfl
      · have e1 := lang_chr.1 hl; simp at e1; exact hne e1
      · obtain ⟨d, e1, -⟩ := lang_set.1 hl; simp at e1; exact hne e1.2)
    exact this
  | cons c b ih =>
    have hc : c ≠ '\n' := by rintro rfl; simp at hb
    have hm : (R .oneLine).find? (fun r => r.re.test [c]) = some ⟨.set fun c => c != '\n', .skip⟩ := by
      rw [h.one]
      have h1 : Re.test (.chr '\n') [c] = false := by rw [test_false]; intro hl; have := lang_chr.1 hl; simp at this; exact hc this
      have h2 : Re.test (.set fun c => c != '\n') [c] = true := by rw [test_iff]; exact .set (by simpa using hc)
      simp [oneLineRules, List.find?, h1, h2]
    have := scan_step (rules := R) (w := [c]) (t := b ++ '\n' :: s) (by simp) hm (by
      intro u v hu hne r hr
      rw [h.one] at hr
      rw [test_false]
      intro hl
      simp only [oneLineRules, List.mem_cons, List.not_mem_nil, or_false] at hr
      rcases hr with rfl | rfl
      · have e1 := lang_chr.1 hl; simp at e1; exact hne e1.2
      · obtain ⟨d, e1, -⟩ := lang_set.1 hl; simp at e1; exact hne e1.2)
    rw [List.singleton_append] at this
    rw [List.cons_append, this]
    exact ih (by simp at hb; exact hb.2)

def plain (c : Char) : Bool := c != '*' && c != '\n'

/-- Inside a comment of several lines: a run of characters other than stars and newlines. -/
theorem multi_run (h : Implements R L) {w s : List Char} (hw : ∀ c ∈ w, plain c = true) (hs : ∀ c ∈ s.head?, plain c = false) :
    scan R .multi (w ++ s) = scan R .multi s := by
  cases w with
  | nil => rfl
  | cons c w =>
    have hc := hw c (by simp)
    have hc' : c ≠ '*' ∧ c ≠ '\n' := by simpa [plain] using hc
    have hno : ∀ u, ∀ r ∈ R .multi, Re.Lang r.re (c :: u) → r = ⟨.plus (.set plain), .skip⟩ := by
      intro u r hr hl
      rw [h.multi] at hr
      simp only [multiRules, List.mem_cons, List.not_mem_nil, or_false] at hr
      rcases hr with rfl | rfl | rfl | rfl
      · have e1 := lang_lit.1 hl; simp at e1; exact absurd e1.1 hc'.1
      · rfl
      · obtain ⟨x, y, e1, h1, -⟩ := lang_seq.1 hl
        rw [lang_chr.1 h1] at e1; simp at e1; exact absurd e1.1 hc'.1
      · have e1 := lang_chr.1 hl; simp at e1; exact absurd e1.1 hc'.2
    have hin : (⟨.plus (.set plain), .skip⟩ : Rule) ∈ R .multi := by
      rw [h.multi]; exact List.mem_cons_of_mem _ List.mem_cons_self
    obtain ⟨r, hr⟩ : ∃ r, (R .multi).find? (fun r => r.re.test (c :: w)) = some r := by
      rw [← Option.isSome_iff_exists, List.find?_isSome]; exact ⟨_, hin, (test_iff _ _).2 (lang_plusSet.2 ⟨by simp, hw⟩)⟩
    have hl := List.find?_some hr
    simp only [test_iff] at hl
    have hact := hno w r (List.mem_of_find?_eq_some hr) hl
    have := scan_step (rules := R) (w := c :: w) (t := s) (by simp) hr (by
      intro u v hu hne r hr
      rw [test_false]
      intro hl
      obtain rfl := hno _ r hr hl
      obtain ⟨d, u', rfl⟩ := List.exists_cons_of_ne_nil hne
      have h1 := hs d (by rw [hu]; simp)
      have h2 := (lang_plusSet.1 hl).2 d (by simp)
      rw [h1] at h2; simp at h2)
    rw [this, hact]

theorem multi_plain (h : Implements R L) {c : Char} (hc : plain c = true) (s : List Char) : scan R .multi (c :: s) = scan R .multi s := by
  have hsplit : s = s.takeWhile plain ++ s.dropWhile plain := (List.takeWhile_append_dropWhile).symm
  have hhead : ∀ d ∈ (s.dropWhile plain).head?, plain d = false := by
    intro d hd
    have := List.head?_dropWhile_not plain s
    rw [Option.mem_def.1 hd] at this
    simpa using this
  have hall : ∀ d ∈ s.takeWhile plain, plain d = true := fun d hd => (List.all_eq_true.1 List.all_takeWhile) d hd
  have h1 : scan R .multi s = scan R .multi (s.dropWhile plain) := by
    conv_lhs => rw [hsplit]
    exact multi_run h hall hhead
  have h2 : scan R .multi (c :: s) = scan R .multi (s.dropWhile plain) := by
    conv_lhs => rw [hsplit, ← List.cons_append]
    exact multi_run h (by intro d hd; rcases List.mem_cons.1 hd with rfl | hd; exacts [hc, hall d hd]) hhead
  rw [h1, h2]

theorem multi_newline (h : Implements R L) (s : List Char) : scan R .multi ('\n' :: s) = scan R .multi s := by
  have hm : (R .multi).find? (fun r => r.re.test ['\n']) = some ⟨.chr '\n', .skip⟩ := by rw [h.multi]; rfl
  have := scan_step (rules := R) (w := ['\n']) (t := s) (by simp) hm (by
    intro u v hu hne r hr
    rw [h.multi] at hr
    rw [test_false]
    intro hl
    simp only [multiRules, List.mem_cons, List.not_mem_nil, or_false] at hr
    rcases hr with rfl | rfl | rfl | rfl
    · have e1 := lang_lit.1 hl; simp at e1
    · exact absurd ((lang_plusSet.1 hl).2 '\n' (by simp)) (by decide)
    · obtain ⟨x, y, e1, h1, -⟩ := lang_seq.1 hl
      rw [lang_chr.1 h1] at e1; simp at e1
    · have e1 := lang_chr.1 hl; simp at e1; exact hne e1)
  exact this

/-- Any character but a star. -/
theorem multi_skip (h : Implements R L) {c : Char} (hc : c ≠ '*') (s : List Char) : scan R .multi (c :: s) = scan R .multi s := by
  by_cases hn : c = '\n'
  · subst hn; exact multi_newline h s
  · exact multi_plain h (by simp [plain, hc, hn]) s

/-- A star takes the next character with it: the comment ends if that is a slash. -/
theorem multi_star (h : Implements R L) (c : Char) (s : List Char) :
    scan R .multi ('*' :: c :: s) = if c = '/' then scan R .initial s else scan R .multi s := by
  have hno : ∀ u, ∀ r ∈ R .multi, Re.Lang r.re ('*' :: c :: u) → u = [] ∧ (r = ⟨.lit ['*', '/'], .goto .initial⟩ ∧ c = '/' ∨ c ≠ '/' ∧ r.act = .skip) := by
    intro u r hr hl
    rw [h.multi] at hr
    simp only [multiRules, List.mem_cons, List.not_mem_nil, or_false] at hr
    rcases hr with rfl | rfl | rfl | rfl
    · have e1 := lang_lit.1 hl; simp at e1; exact ⟨e1.2, Or.inl ⟨rfl, e1.1⟩⟩
    · exact absurd ((lang_plusSet.1 hl).2 '*' (by simp)) (by decide)
    · obtain ⟨x, y, e1, h1, h2⟩ := lang_seq.1 hl
      obtain ⟨d, rfl, hd⟩ := lang_set.1 h2
      rw [lang_chr.1 h1] at e1; simp at e1
      refine ⟨e1.2, Or.inr ⟨?_, rfl⟩⟩
      rw [e1.1]; simpa using hd
    · have e1 := lang_chr.1 hl; simp at e1
  obtain ⟨r, hr⟩ : ∃ r, (R .multi).find? (fun r => r.re.test ['*', c]) = some r := by
    rw [← Option.isSome_iff_exists, List.find?_isSome, h.multi]
    by_cases hc : c = '/'
    · exact ⟨⟨.lit ['*', '/'], .goto .initial⟩, List.mem_cons_self, (test_iff _ _).2 (lang_lit.2 (by rw [hc]))⟩
    · refine ⟨⟨.seq (.chr '*') (.set fun c => c != '/'), .skip⟩, by simp [multiRules], (test_iff _ _).2 ?_⟩
      exact lang_seq.2 ⟨['*'], [c], rfl, lang_chr.2 rfl, .set (by simpa using hc)⟩
  have hl := List.find?_some hr
  simp only [test_iff] at hl
  have hact := (hno [] r (List.mem_of_find?_eq_some hr) hl).2
  have := scan_step (rules := R) (w := ['*', c]) (t := s) (by simp) hr (by
    intro u v hu hne r hr
    rw [test_false]
    intro hl
    exact hne (hno u r hr hl).1)
  rw [show '*' :: c :: s = ['*', c] ++ s from rfl, this]
  rcases hact with ⟨rfl, hc⟩ | ⟨hc, ha⟩
  · rw [if_pos hc]
  · rw [if_neg hc, ha]

/-- At the end of the file. -/
theorem multi_last (h : Implements R L) : scan R .multi ['*'] = [] := by
  rw [scan_echo, scan_nil]
  intro u v hu r hr
  obtain ⟨rfl, rfl⟩ := List.append_eq_nil_iff.1 hu.symm
  rw [h.multi] at hr
  rw [test_false]
  intro hl
  simp only [multiRules, List.mem_cons, List.not_mem_nil, or_false] at hr
  rcases hr with rfl | rfl | rfl | rfl
  · have e1 := lang_lit.1 hl; simp at e1
  · exact absurd ((lang_plusSet.1 hl).2 '*' (by simp)) (by decide)
  · obtain ⟨x, y, e1, h1, h2⟩ := lang_seq.1 hl
    obtain ⟨d, rfl, hd⟩ := lang_set.1 h2
    rw [lang_chr.1 h1] at e1; simp at e1
  · have e1 := lang_chr.1 hl; simp at e1

/-! ### Comments of several lines -/

/-- Whether a comment with the text `b` is closed by the `*/` that follows it: each star is read together with the next character, so the
star of `*/` must not be the second of such a pair. -/
def closes : List Char → Bool
  | [] => true
  | [c] => c != '*'
  | c :: d :: s => if c = '*' then d != '/' && closes s else closes (d :: s)

theorem scan_multi_body (h : Implements R L) : ∀ (b : List Char), ¬ ['*', '/'] <:+: b → ∀ s,
    scan R .multi (b ++ ['*', '/'] ++ s) = if closes b = true then scan R .initial s else scan R .multi s
  | [], _, s => by
    rw [show ([] : List Char) ++ ['*', '/'] ++ s = '*' :: '/' :: s from rfl, multi_star h, if_pos rfl, if_pos (by rfl)]
  | [c], _, s => by
    by_cases hc : c = '*'
    · subst hc
      rw [show ['*'] ++ ['*', '/'] ++ s = '*' :: '*' :: '/' :: s from rfl, multi_star h, if_neg (by decide), multi_skip h (by decide), if_neg (by decide)]
    · rw [show [c] ++ ['*', '/'] ++ s = c :: '*' :: '/' :: s from rfl, multi_skip h hc, multi_star h, if_pos rfl, if_pos (by simp [closes, hc])]
  | c :: d :: b, hb, s => by
    by_cases hc : c = '*'
    · subst hc
      have hd : d ≠ '/' := by
        rintro rfl; exact hb ⟨[], b, rfl⟩
      have := scan_multi_body h b (fun hi => hb (hi.trans (List.IsSuffix.isInfix ⟨['*', d], rfl⟩))) s
      rw [show ('*' :: d :: b) ++ ['*', '/'] ++ s = '*' :: d :: (b ++ ['*', '/'] ++ s) from rfl, multi_star h, if_neg hd, this]
      simp [closes, hd]
    · have := scan_multi_body h (d :: b) (fun hi => hb (hi.trans (List.IsSuffix.isInfix ⟨[c], rfl⟩))) s
      rw [show (c :: d :: b) ++ ['*', '/'] ++ s = c :: ((d :: b) ++ ['*', '/'] ++ s) from rfl, multi_skip h hc, this]
      simp [closes, hc]

/-- Without two stars in a row the comment is closed. -/
theorem closes_of : ∀ b : List Char, ¬ ['*', '/'] <:+: b → ¬ ['*', '*'] <:+: b ++ ['*'] → closes b = true
  | [], _, _ => rfl
  | [c], _, h2 => by
    simp only [closes, bne_iff_ne, ne_eq]
    rintro rfl; exact h2 ⟨[], [], rfl⟩
  | c :: d :: s, h1, h2 => by
    have ih1 := closes_of (d :: s) (fun hi => h1 (hi.trans (List.IsSuffix.isInfix ⟨[c], rfl⟩)))
      (fun hi => h2 (hi.trans (List.IsSuffix.isInfix ⟨[c], rfl⟩)))
    have ih2 := closes_of s (fun hi => h1 (hi.trans (List.IsSuffix.isInfix ⟨[c, d], rfl⟩)))
      (fun hi => h2 (hi.trans (List.IsSuffix.isInfix ⟨[c, d], rfl⟩)))
    simp only [closes]
    by_cases hc : c = '*'
    · have hd : d ≠ '/' := by rintro rfl; subst hc; exact h1 ⟨[], s, rfl⟩
      simp [hc, hd, ih2]
    · simp [hc, ih1]

theorem scan_gap (h : Implements R L) {g : List Char} (hg : Gap g) (s : List Char) : scan R .initial (g ++ s) = scan R .initial s := by
  cases hg with
  | space hc => exact scan_space h ((isSpace_eq _).trans hc) s
  | @line b hb =>
    rw [show ['/', '/'] ++ b ++ ['\n'] ++ s = '/' :: '/' :: (b ++ '\n' :: s) by simp, scan_slash h (Or.inl ⟨rfl, rfl⟩), scan_line h hb]
  | @block b h1 h2 =>
    rw [show ['/', '*'] ++ b ++ ['*', '/'] ++ s = '/' :: '*' :: (b ++ ['*', '/'] ++ s) by simp, scan_slash h (Or.inr ⟨rfl, rfl⟩),
      scan_multi_body h b h1, if_pos (closes_of b h1 h2)]

theorem scan_written (h : Implements R L) {ts : List Tok} {s : List Char} (hw : Written L ts s) : scan R .initial s = ts := by
  induction hw with
  | nil => exact scan_nil _ _
  | gap hg _ ih => rw [scan_gap h hg, ih]
  | @tok t w ts s hs he _ ih =>
    cases hs with
    | sym hc => rw [List.singleton_append, scan_sym h hc, ih]
    | kw hk => rw [scan_kw h hk he, ih]
    | num hn => rw [scan_num h (numeral_double hn) he, atof_text _ hn, ih]
    | ident hi hk => rw [scan_ident h hi hk he, ih]
    | path hp hq => rw [scan_path h hp hq, ih]

/-! ### The theorems -/

/-- **C65 (partial)** Whatever the white space and the comments between them, the tokens written are the tokens read, with the numbers they
denote, in the three kinds of files. Missing: comments with two stars in a row (`C65_comment_violated`), characters that are not part of the
language (`C65_stray_violated`). -/
theorem C65_free_format_partial {ts : List Tok} {s : List Char} :
    (Written stackLex ts s → scan stackRules .initial s = ts) ∧ (Written flpLex ts s → scan flpRules .initial s = ts) ∧
    (Written layLex ts s → scan layRules .initial s = ts) :=
  ⟨scan_written stack_implements, scan_written flp_implements, scan_written lay_implements⟩

/-- **C65** A file has at most one reading: what is written determines the tokens. -/
theorem C65_unambiguous {L : Lexicon} (hL : L = stackLex ∨ L = flpLex ∨ L = layLex) {ts ts' : List Tok} {s : List Char} (h : Written L ts s) (h' : Written L ts' s) :
    ts = ts' := by
  rcases hL with rfl | rfl | rfl
  · rw [← scan_written stack_implements h, scan_written stack_implements h']
  · rw [← scan_written flp_implements h, scan_written flp_implements h']
  · rw [← scan_written lay_implements h, scan_written lay_implements h']

/-- **C65 (violated)** A comment should end with the first `*/`. It does so only if `closes` holds of its text; otherwise, and always if its
text ends with the first of two stars, what follows the `*/` is taken as part of the comment. -/
theorem C65_comment_violated {b : List Char} (hb : ¬ ['*', '/'] <:+: b) (s : List Char) :
    (closes b = true → scan stackRules .initial (['/', '*'] ++ b ++ ['*', '/'] ++ s) = scan stackRules .initial s ∧
      scan flpRules .initial (['/', '*'] ++ b ++ ['*', '/'] ++ s) = scan flpRules .initial s) ∧
    (closes b = false → scan stackRules .initial (['/', '*'] ++ b ++ ['*', '/'] ++ s) = scan stackRules .initial (['/', '*'] ++ s) ∧
      scan flpRules .initial (['/', '*'] ++ b ++ ['*', '/'] ++ s) = scan flpRules .initial (['/', '*'] ++ s)) := by
  have key : ∀ {R L}, Implements R L → scan R .initial (['/', '*'] ++ b ++ ['*', '/'] ++ s) = if closes b = true then scan R .initial s else scan R .multi s := by
    intro R L h
    rw [show ['/', '*'] ++ b ++ ['*', '/'] ++ s = '/' :: '*' :: (b ++ ['*', '/'] ++ s) by simp, scan_slash h (Or.inr ⟨rfl, rfl⟩), scan_multi_body h b hb]
  have opn : ∀ {R L}, Implements R L → scan R .initial (['/', '*'] ++ s) = scan R .multi s := fun h => scan_slash h (Or.inr ⟨rfl, rfl⟩) s
  refine ⟨fun hc => ?_, fun hc => ?_⟩
  · rw [key stack_implements, key flp_implements, if_pos hc, if_pos hc]; exact ⟨rfl, rfl⟩
  · rw [key stack_implements, key flp_implements, if_neg (by simp [hc]), if_neg (by simp [hc]), opn stack_implements, opn flp_implements]; exact ⟨rfl, rfl⟩

theorem scan_multi_none (h : Implements R L) : ∀ {s : List Char}, ¬ ['*', '/'] <:+: s → scan R .multi s = []
  | [], _ => scan_nil _ _
  | [c], _ => by
    by_cases hc : c = '*'
    · subst hc; exact multi_last h
    · rw [multi_skip h hc, scan_nil]
  | c :: d :: s, hs => by
    by_cases hc : c = '*'
    · subst hc
      have hd : d ≠ '/' := by rintro rfl; exact hs ⟨[], s, rfl⟩
      rw [multi_star h, if_neg hd]
      exact scan_multi_none h fun hi => hs (hi.trans (List.IsSuffix.isInfix ⟨['*', d], rfl⟩))
    · rw [multi_skip h hc]
      exact scan_multi_none h fun hi => hs (hi.trans (List.IsSuffix.isInfix ⟨[c], rfl⟩))

/-- **C65 (violated)** A comment that ends with `**/` hides the rest of the file, up to the end of the next comment, and no error is
reported: without other comments the rest of the file is not read at all. -/
theorem C65_hidden_violated {b s : List Char} (hb : '*' ∉ b) (hs : ¬ ['*', '/'] <:+: s) :
    scan flpRules .initial (['/', '*'] ++ b ++ ['*', '*', '/'] ++ s) = [] ∧ scan stackRules .initial (['/', '*'] ++ b ++ ['*', '*', '/'] ++ s) = [] := by
  have hc : ∀ b : List Char, '*' ∉ b → closes (b ++ ['*']) = false := by
    intro b
    induction b with
    | nil => intro _; rfl
    | cons c b ih =>
      intro h
      simp only [List.mem_cons, not_or] at h
      have := ih h.2
      cases b with
      | nil => simp [closes, Ne.symm h.1]
      | cons d b => simp only [List.cons_append, closes, if_neg (Ne.symm h.1)] at this ⊢; exact this
  have hn : ¬ ['*', '/'] <:+: b ++ ['*'] := by
    rintro ⟨x, y, e⟩
    rcases List.eq_nil_or_concat y with rfl | ⟨y', z, rfl⟩
    · have := (List.append_inj' (show (x ++ ['*']) ++ ['/'] = b ++ ['*'] by simpa using e) rfl).2
      simp at this
    · have := (List.append_inj' (show (x ++ ['*', '/'] ++ y') ++ [z] = b ++ ['*'] by simpa using e) rfl).1
      exact hb (by rw [← this]; simp)
  have e : ['/', '*'] ++ b ++ ['*', '*', '/'] ++ s = ['/', '*'] ++ (b ++ ['*']) ++ ['*', '/'] ++ s := by simp
  have h := (C65_comment_violated hn s).2 (hc b hb)
  rw [e, h.1, h.2]
  exact ⟨(scan_slash flp_implements (Or.inr ⟨rfl, rfl⟩) s).trans (scan_multi_none flp_implements hs),
    (scan_slash stack_implements (Or.inr ⟨rfl, rfl⟩) s).trans (scan_multi_none stack_implements hs)⟩

/-- A character no token begins with. -/
def Stray (L : Lexicon) (c : Char) : Prop :=
  c.isAlphanum = false ∧ blank c = false ∧ c ≠ '"' ∧ c ≠ '/' ∧ c ≠ '+' ∧ c ≠ '-' ∧ c ∉ L.syms

theorem scan_stray (h : Implements R L) {c : Char} (hc : Stray L c) (s : List Char) : scan R .initial (c :: s) = scan R .initial s := by
  obtain ⟨g1, g2, g3, g4, g5, g6, g7⟩ := hc
  rw [← isAlnum_eq] at g1
  rw [← isSpace_eq] at g2
  have hnd : isDigit c = false ∧ isAlpha c = false := by
    simp only [isAlnum, Bool.or_eq_false_iff] at g1; exact ⟨g1.2, g1.1⟩
  refine scan_echo fun u v hu r hr => ?_
  rw [test_false]
  intro hl
  rcases mem_initial h hr with rfl | ⟨c', hc', rfl⟩ | hr | ⟨k, hk', rfl⟩ | rfl | rfl | rfl | ⟨-, rfl⟩
  · have := lang_starSet.1 hl c (by simp)
    rw [g2] at this; simp at this
  · have e1 := lang_chr.1 hl
    simp only [List.cons.injEq] at e1
    rw [e1.1] at g7; exact g7 hc'
  · simp only [ruleComments, List.mem_cons, List.not_mem_nil, or_false] at hr
    rcases hr with rfl | rfl
    · have e1 := lang_lit.1 hl; rw [List.cons.injEq] at e1; exact absurd e1.1 g4
    · have e1 := lang_lit.1 hl; rw [List.cons.injEq] at e1; exact absurd e1.1 g4
  · have e1 := lang_lit.1 hl
    have := (h.kws k hk').2.2.1 c (by rw [← e1]; simp)
    rw [g1] at this; simp at this
  · rcases (double_chars hl).2.2 c (by simp) with h | h | h
    · rw [hnd.1] at h; simp at h
    · exact absurd h g5
    · exact absurd h g6
  · rcases sint_head hl c (by simp) with h | h | h
    · rw [hnd.1] at h; simp at h
    · exact absurd h g5
    · exact absurd h g6
  · obtain ⟨d, x, e1, h1, -⟩ := lang_ident.1 hl
    rw [List.cons.injEq] at e1
    rw [← e1.1, hnd.2] at h1; simp at h1
  · obtain ⟨x, e1, -⟩ := lang_path.1 hl
    rw [List.cons.injEq] at e1; exact absurd e1.1 g3

/-- **C65 (violated)** A character that no token begins with should make the file be refused. It is skipped: the file is read as if it
were not there. -/
theorem C65_stray_violated {c : Char} (s : List Char) : (Stray stackLex c → scan stackRules .initial (c :: s) = scan stackRules .initial s) ∧
    (Stray flpLex c → scan flpRules .initial (c :: s) = scan flpRules .initial s) ∧ (Stray layLex c → scan layRules .initial (c :: s) = scan layRules .initial s) :=
  ⟨fun h => scan_stray stack_implements h s, fun h => scan_stray flp_implements h s, fun h => scan_stray lay_implements h s⟩

/-- **C65 (violated)** In a floorplan file a number written with nothing before the point, such as `.5`, is read as if the point were not
there: as 5. -/
theorem C65_point_violated {ds : List (Fin 10)} (hd : ds ≠ []) {s : List Char} (hs : ∀ c ∈ s.head?, wordy c = false) :
    scan flpRules .initial ('.' :: (ds.map dig ++ s)) = .num (natOf ds) :: scan flpRules .initial s := by
  have h1 := scan_stray flp_implements (c := '.') ⟨by decide, by decide, by decide, by decide, by decide, by decide, by decide⟩ (ds.map dig ++ s)
  have hok : Numeral.Ok ⟨.no, ds, none, none⟩ := ⟨hd, by simp, by simp⟩
  have h2 := scan_num flp_implements (numeral_double hok) hs
  have ht : Numeral.text ⟨.no, ds, none, none⟩ = ds.map dig := by simp [Numeral.text, Sign.text, fracText, expText]
  have hv : Numeral.value ⟨.no, ds, none, none⟩ = natOf ds := by simp [Numeral.value, Sign.apply, fracVal, expVal]
  rw [atof_text _ hok, ht, hv] at h2
  rw [h1, h2]

/-! ### Examples -/

/-- A line of a stack file, with comments, and what is read. -/
example : Written stackLex [.kw "die", .ident "TOP", .sym ':', .kw "source", .num (1 / 4), .ident "SILICON", .sym ';']
    ("die".toList ++ ([' '] ++ ("TOP".toList ++ ([':'] ++ (['/', '/'] ++ " x".toList ++ ['\n'] ++ (['/', '*'] ++ "a\n*b".toList ++ ['*', '/'] ++ ("source".toList ++ ([' '] ++
      (Numeral.text ⟨.no, [2], some [5], some (false, .minus, [1])⟩ ++ ([' '] ++ ("SILICON".toList ++ ([';'] ++ [])))))))))))) := by
  have hn := Spells.num (L := stackLex) (n := ⟨.no, [2], some [5], some (false, .minus, [1])⟩) ⟨by simp, by simp, by simp⟩
  have hv : Numeral.value ⟨.no, [2], some [5], some (false, .minus, [1])⟩ = 1 / 4 := by
    have h2 : natOf [2] = 2 := rfl
    have h5 : natOf [5] = 5 := rfl
    have h1 : natOf [1] = 1 := rfl
    norm_num [Numeral.value, Sign.apply, fracVal, expVal, h1, h2, h5]
  rw [hv] at hn
  have sp : Gap [' '] := .space (by decide)
  have e : ∀ {d : Char} {s : List Char}, wordy d = false → ∀ c ∈ (d :: s).head?, wordy c = false := by
    intro d s h c hc
    simp only [List.head?_cons, Option.mem_def, Option.some.injEq] at hc
    rw [← hc]; exact h
  refine .tok (.kw (by decide)) (e (d := ' ') (by decide)) (.gap sp ?_)
  refine .tok (.ident ⟨'T', ['O', 'P'], rfl, by decide, by decide⟩ (by decide)) (e (d := ':') (by decide)) ?_
  refine .tok (.sym (by decide)) trivial (.gap (.line (by decide)) (.gap (.block (by decide) (by decide)) ?_))
  refine .tok (.kw (by decide)) (e (d := ' ') (by decide)) (.gap sp ?_)
  refine .tok hn (e (d := ' ') (by decide)) (.gap sp ?_)
  refine .tok (.ident ⟨'S', "ILICON".toList, rfl, by decide, by decide⟩ (by decide)) (e (d := ';') (by decide)) ?_
  exact .tok (.sym (by decide)) trivial .nil

/-- A decorated comment at the beginning of a floorplan file: nothing is read. -/
example : scan flpRules .initial "/**** cores ****/ core : position 0, 0; dimension 1, 1; power values 5;".toList = [] := by decide +kernel

/-- Half a watt becomes five. -/
example : scan flpRules .initial "power values .5 ;".toList = [.kw "power", .kw "values", .num 5, .sym ';'] := by decide +kernel

end Verif.Scan
