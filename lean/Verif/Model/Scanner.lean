import Mathlib.Data.Rat.Defs
import Mathlib.Algebra.Order.Field.Rat
import Mathlib.Algebra.Field.Rat

/-! Model of the three scanners `flex/stack_description_scanner.l`, `flex/floorplan_scanner.l` and `flex/layout_scanner.l`: from the
characters of a file to its tokens.

A scanner generated by flex takes, at each point, the longest prefix of the input matched by one of the patterns of the current start
condition, the first pattern listed if several match it; a character no pattern matches is copied to the standard output and skipped
(`%option default`). The text of numbers is converted to the rational number written, instead of the nearest `double`. -/

namespace Verif.Scan

/-! ### Regular expressions -/

/-- Regular expressions over characters, as used in the definitions and patterns of flex: flex/stack_description_scanner.l:96-101. -/
inductive Re where
  | eps
  | set (p : Char → Bool)
  | alt (a b : Re)
  | seq (a b : Re)
  | star (a : Re)

/-- The empty string is denoted by the expression. -/
def Re.nullable : Re → Bool
  | .eps => true
  | .set _ => false
  | .alt a b => a.nullable || b.nullable
  | .seq a b => a.nullable && b.nullable
  | .star _ => true

/-- Derivative: what may follow the character `c`. -/
def Re.deriv (c : Char) : Re → Re
  | .eps => .set fun _ => false
  | .set p => if p c then .eps else .set fun _ => false
  | .alt a b => .alt (a.deriv c) (b.deriv c)
  | .seq a b => if a.nullable then .alt (.seq (a.deriv c) b) (b.deriv c) else .seq (a.deriv c) b
  | .star a => .seq (a.deriv c) (.star a)

/-- Whether a string is matched as a whole (the automaton flex builds decides the same). -/
def Re.test : Re → List Char → Bool
  | r, [] => r.nullable
  | r, c :: s => (r.deriv c).test s

def Re.chr (c : Char) : Re := .set fun x => x == c
def Re.lit : List Char → Re
  | [] => .eps
  | c :: s => .seq (.chr c) (Re.lit s)
def Re.opt (a : Re) : Re := .alt a .eps
def Re.plus (a : Re) : Re := .seq a (.star a)

/-- [[:digit:]], [[:alpha:]], [[:alnum:]] and [[:space:]] in the C locale: flex/stack_description_scanner.l:96-117. -/
def isDigit (c : Char) : Bool := decide ('0' ≤ c ∧ c ≤ '9')
def isAlpha (c : Char) : Bool := decide (('a' ≤ c ∧ c ≤ 'z') ∨ ('A' ≤ c ∧ c ≤ 'Z'))
def isAlnum (c : Char) : Bool := isAlpha c || isDigit c
def isSpace (c : Char) : Bool := decide (c = ' ' ∨ ('\t' ≤ c ∧ c ≤ '\r'))

/-- Definitions: flex/stack_description_scanner.l:96-101, flex/floorplan_scanner.l:96-101, flex/layout_scanner.l:96-101. -/
def reUInt : Re := .plus (.set isDigit)
def reSInt : Re := .seq (.opt (.set fun c => c == '+' || c == '-')) reUInt
def reExp : Re := .seq (.set fun c => c == 'e' || c == 'E') reSInt
def reDouble : Re := .seq reSInt (.opt (.seq (.opt (.seq (.chr '.') reUInt)) (.opt reExp)))
def reIdent : Re := .seq (.set isAlpha) (.star (.alt (.chr '_') (.set isAlnum)))
def rePath : Re := .seq (.chr '"') (.seq (.star (.set fun c => c != '"')) (.chr '"'))

/-! ### Tokens -/

/-- The tokens given to the parser: flex/stack_description_scanner.l:119-244. A keyword stands for the token of its rule. -/
inductive Tok where
  | sym (c : Char)
  | kw (s : String)
  | num (q : ℚ)
  | ident (s : String)
  | path (s : String)
deriving DecidableEq

/-- The number written by a sequence of digits. -/
def digitsVal (ds : List Char) : Nat := ds.foldl (fun n c => 10 * n + (c.toNat - '0'.toNat)) 0

/-- An optional sign. -/
def takeSign : List Char → Bool × List Char
  | [] => (false, [])
  | c :: s => if c = '-' then (true, s) else if c = '+' then (false, s) else (false, c :: s)

/-- The digits after a point, if there is a point, and the rest. -/
def takeFrac : List Char → List Char × List Char
  | [] => ([], [])
  | c :: t => if c = '.' then (t.takeWhile isDigit, t.dropWhile isDigit) else ([], c :: t)

/-- The exponent, if there is one. -/
def takeExp : List Char → Int
  | [] => 0
  | c :: t => if c = 'e' ∨ c = 'E' then (if (takeSign t).1 then - (digitsVal (takeSign t).2 : Int) else digitsVal (takeSign t).2) else 0

/-- `atof` (flex/stack_description_scanner.l:204-207) on the texts of the pattern `double`, without the rounding: C11 7.22.1.3. -/
def atof (s : List Char) : ℚ :=
  let r := (takeSign s).2
  let fr := takeFrac (r.dropWhile isDigit)
  let v : ℚ := (digitsVal (r.takeWhile isDigit ++ fr.1) : ℚ) * (10 : ℚ) ^ (takeExp fr.2 - fr.1.length)
  if (takeSign s).1 then - v else v

/-! ### The engine -/

/-- Start conditions: flex/stack_description_scanner.l:106-107. -/
inductive State where
  | initial | oneLine | multi
deriving DecidableEq

/-- The action of a rule: skip the text, return a token, change the start condition: flex/stack_description_scanner.l:117-251. -/
inductive Act where
  | skip
  | tok (f : List Char → Tok)
  | goto (s : State)

structure Rule where
  re : Re
  act : Act

/-- Longest match: the greatest `n < k` such that a rule matches the first `n + 1` characters, with the first such rule. -/
def longest (rules : List Rule) (s : List Char) : Nat → Option (Nat × Rule)
  | 0 => none
  | n + 1 =>
    match rules.find? fun r => r.re.test (s.take (n + 1)) with
    | some r => some (n, r)
    | none => longest rules s n

/-- The scanner: the tokens of a text. At the end of the text it ends in every start condition. -/
def scan (rules : State → List Rule) (st : State) (s : List Char) : List Tok :=
  match s with
  | [] => []
  | c :: cs =>
    match longest (rules st) (c :: cs) (cs.length + 1) with
    | none => scan rules st cs
    | some (n, r) =>
      match r.act with
      | .skip => scan rules st (cs.drop n)
      | .tok f => f ((c :: cs).take (n + 1)) :: scan rules st (cs.drop n)
      | .goto st' => scan rules st' (cs.drop n)
termination_by s.length
decreasing_by all_goals (simp only [List.length_cons, List.length_drop]; omega)

/-! ### The rules -/

def tokSym (s : List Char) : Tok := .sym (s.headD ' ')
def tokKw (s : List Char) : Tok := .kw (String.ofList s)
def tokNum (s : List Char) : Tok := .num (atof s)
def tokIdent (s : List Char) : Tok := .ident (String.ofList s)
/-- The quotes are removed: flex/stack_description_scanner.l:216-244. -/
def tokPath (s : List Char) : Tok := .path (String.ofList (s.tail.take (s.length - 2)))

def ruleSym (c : Char) : Rule := ⟨.chr c, .tok tokSym⟩
def ruleKw (k : String) : Rule := ⟨.lit k.toList, .tok tokKw⟩
def ruleSpace : Rule := ⟨.star (.set isSpace), .skip⟩
def ruleComments : List Rule := [⟨.lit ['/', '/'], .goto .oneLine⟩, ⟨.lit ['/', '*'], .goto .multi⟩]

/-- The rules of the start conditions of comments: flex/stack_description_scanner.l:246-251, flex/floorplan_scanner.l:154-159,
flex/layout_scanner.l:157-162. A dot matches any character but a newline. -/
def oneLineRules : List Rule := [⟨.chr '\n', .goto .initial⟩, ⟨.set fun c => c != '\n', .skip⟩]
def multiRules : List Rule :=
  [⟨.lit ['*', '/'], .goto .initial⟩, ⟨.plus (.set fun c => c != '*' && c != '\n'), .skip⟩,
   ⟨.seq (.chr '*') (.set fun c => c != '/'), .skip⟩, ⟨.chr '\n', .skip⟩]

/-- Keywords: flex/stack_description_scanner.l:129-202. -/
def stackKws : List String :=
  ["2rm", "4rm", "average", "bottom", "capacity", "cell", "channel", "chip", "coefficient", "conductivity",
   "coolant", "darcy", "diameter", "die", "dimensions", "distribution", "discretization", "final", "first",
   "floorplan", "flow", "gradient", "heat", "height", "incoming", "initial", "inline", "last", "layer", "layout",
   "length", "material", "maximum", "microchannel", "minimum", "non-uniform", "numofcores", "output", "pin",
   "pinfin", "pitch", "pluggable", "plugin", "Pmap", "rate", "side", "sink", "slot", "solver", "source", "spreader",
   "stack", "staggered", "state", "steady", "step", "T", "temperature", "Tcoolant", "Tflp", "Tflpel", "thermal",
   "to", "top", "Tmap", "T3d", "transfer", "transient", "velocity", "volumetric", "wall", "width", "true", "false"]
/-- Keywords: flex/floorplan_scanner.l:130-136. -/
def flpKws : List String :=
  ["dimension", "position", "power", "rectangle", "values", "discretization", "material"]
/-- Keywords: flex/layout_scanner.l:130-138. -/
def layKws : List String :=
  ["capacity", "conductivity", "dimension", "heat", "material", "position", "rectangle", "thermal", "volumetric"]

/-- flex/stack_description_scanner.l:117-251. -/
def stackRules : State → List Rule
  | .initial => [ruleSpace] ++ ['(', ')', ',', '.', ':', ';'].map ruleSym ++ ruleComments ++ stackKws.map ruleKw ++
      [⟨reDouble, .tok tokNum⟩, ⟨reIdent, .tok tokIdent⟩, ⟨rePath, .tok tokPath⟩]
  | .oneLine => oneLineRules
  | .multi => multiRules

/-- flex/floorplan_scanner.l:119-159. There is no rule for a dot. -/
def flpRules : State → List Rule
  | .initial => [ruleSpace] ++ ruleComments ++ ['(', ')', ':', ',', ';'].map ruleSym ++ flpKws.map ruleKw ++
      [⟨reIdent, .tok tokIdent⟩, ⟨reSInt, .tok tokNum⟩, ⟨reDouble, .tok tokNum⟩]
  | .oneLine => oneLineRules
  | .multi => multiRules

/-- flex/layout_scanner.l:119-162. -/
def layRules : State → List Rule
  | .initial => [ruleSpace] ++ ruleComments ++ ['(', ')', ':', ',', ';'].map ruleSym ++ layKws.map ruleKw ++
      [⟨reIdent, .tok tokIdent⟩, ⟨reSInt, .tok tokNum⟩, ⟨reDouble, .tok tokNum⟩]
  | .oneLine => oneLineRules
  | .multi => multiRules

end Verif.Scan
