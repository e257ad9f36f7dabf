import Verif.Model.Grammar
import Verif.Props.Scanner

set_option linter.unusedSimpArgs false
set_option linter.unusedVariables false

/-! ## C66: the grammar of the input files

A document - a stack file, a floorplan, a layout - is written as a sequence of tokens; the parser finds the document back. -/

namespace Verif.Gram
open Verif.Scan Verif.TG

/-! ### Specification: how documents are written -/

def kw : String → Tok := .kw
def semi : Tok := .sym ';'
def colon : Tok := .sym ':'
def comma : Tok := .sym ','

def CondD.toks : CondD → List Tok
  | .iso k => [.num k]
  | .aniso kx ky kz => [.num kx, comma, .num ky, comma, .num kz]

def MatD.toks (m : MatD) : List Tok :=
  [kw "material", .ident m.id, colon, kw "thermal", kw "conductivity"] ++ m.cond.toks ++ [semi, kw "volumetric", kw "heat", kw "capacity", .num m.vhc, semi]

def SinkD.toks (side : String) (s : SinkD) : List Tok :=
  [kw side, kw "heat", kw "sink", colon, kw "heat", kw "transfer", kw "coefficient", .num s.htc, semi, kw "temperature", .num s.temp, semi]

def PlugD.toks (p : PlugD) : List Tok :=
  [kw "top", kw "pluggable", kw "heat", kw "sink", colon,
   kw "spreader", kw "length", .num p.length, comma, kw "width", .num p.width, comma, kw "height", .num p.height, semi,
   kw "material", .ident p.mat, semi, kw "plugin", .path p.plugin] ++
  (match p.args with | none => [] | some a => [comma, .path a]) ++ [semi]

def TopD.toks : TopD → List Tok
  | .conv s => s.toks "top"
  | .plug p => p.toks

def Htc4.toks : Htc4 → List Tok
  | .one h => [.num h, semi]
  | .three s t b => [kw "side", .num s, comma, kw "top", .num t, comma, kw "bottom", .num b, semi]

def Htc2.toks : Htc2 → List Tok
  | .one h => [.num h, semi]
  | .two t b => [kw "top", .num t, comma, kw "bottom", .num b, semi]

/-- The length of the first or last wall, if given. -/
def wallToks (which : String) : Option ℚ → List Tok
  | none => []
  | some x => [kw which, kw "wall", kw "length", .num x, semi]

def ChanD.toks : ChanD → List Tok
  | .rm4 h c w f l m fl t v i =>
    [kw "microchannel", kw "4rm", colon, kw "height", .num h, semi, kw "channel", kw "length", .num c, semi, kw "wall", kw "length", .num w, semi] ++
    wallToks "first" f ++ wallToks "last" l ++
    [kw "wall", kw "material", .ident m, semi, kw "coolant", kw "flow", kw "rate", .num fl, semi, kw "coolant", kw "heat", kw "transfer", kw "coefficient"] ++
    t.toks ++
    [kw "coolant", kw "volumetric", kw "heat", kw "capacity", .num v, semi, kw "coolant", kw "incoming", kw "temperature", .num i, semi]
  | .rm2 h c w m fl t v i =>
    [kw "microchannel", kw "2rm", colon, kw "height", .num h, semi, kw "channel", kw "length", .num c, semi, kw "wall", kw "length", .num w, semi,
     kw "wall", kw "material", .ident m, semi, kw "coolant", kw "flow", kw "rate", .num fl, semi, kw "coolant", kw "heat", kw "transfer", kw "coefficient"] ++
    t.toks ++
    [kw "coolant", kw "volumetric", kw "heat", kw "capacity", .num v, semi, kw "coolant", kw "incoming", kw "temperature", .num i, semi]
  | .pin h d p s m u v i =>
    [kw "pinfin", colon, kw "height", .num h, semi, kw "pin", kw "diameter", .num d, semi, kw "pin", kw "pitch", .num p, semi,
     kw "pin", kw "distribution", kw (if s then "staggered" else "inline"), semi, kw "pin", kw "material", .ident m, semi,
     kw "darcy", kw "velocity", .num u, semi,
     kw "coolant", kw "volumetric", kw "heat", kw "capacity", .num v, semi, kw "coolant", kw "incoming", kw "temperature", .num i, semi]

def DimD.toks (d : DimD) : List Tok :=
  [kw "dimensions", colon, kw "chip", kw "length", .num d.chipL, comma, kw "width", .num d.chipW, semi,
   kw "cell", kw "length", .num d.cellL, comma, kw "width", .num d.cellW, semi] ++
  (match d.nonUniform with | none => [] | some b => [kw "non-uniform", kw (if b then "true" else "false"), semi])

def LayD.toks (l : LayD) : List Tok :=
  [kw "layer", .ident l.id, colon, kw "height", .num l.height, semi, kw "material", .ident l.mat, semi] ++
  (match l.layout with | none => [] | some p => [kw "layout", .path p, semi])

def DLayD.toks (k : String) : DLayD → List Tok
  | .own h m => [kw k, .num h, .ident m, semi]
  | .ref n => [kw k, .ident n, semi]

def DieD.toks (d : DieD) : List Tok :=
  [kw "die", .ident d.id, colon] ++ d.above.flatMap (DLayD.toks "layer") ++ d.source.toks "source" ++ d.below.flatMap (DLayD.toks "layer")

def discrToks : Option (ℚ × ℚ) → List Tok
  | none => []
  | some (x, y) => [kw "discretization", .num x, .num y]

def ElD.toks : ElD → List Tok
  | .layer n r d => [kw "layer", .ident n, .ident r] ++ discrToks d ++ [semi]
  | .channel n => [kw "channel", .ident n, semi]
  | .die n r p d => [kw "die", .ident n, .ident r, kw "floorplan", .path p] ++ discrToks d ++ [semi]

def SolverD.toks (s : SolverD) : List Tok :=
  [kw "solver", colon] ++
  (match s.kind with | none => [kw "steady", semi] | some (st, sl) => [kw "transient", kw "step", .num st, comma, kw "slot", .num sl, semi]) ++
  [kw "initial", kw "temperature", .num s.init, semi] ++
  (match s.cores with | none => [] | some n => [kw "numofcores", .num n, semi])

def WhenD.toks : WhenD → List Tok
  | .unsaid => []
  | .step => [comma, kw "step"]
  | .slot => [comma, kw "slot"]
  | .final => [comma, kw "final"]

def QuantD.tok : QuantD → Tok
  | .maximum => kw "maximum"
  | .minimum => kw "minimum"
  | .average => kw "average"
  | .gradient => kw "gradient"

def PointD.toks : PointD → List Tok
  | .tcell e x y f w => [kw "T", .sym '(', .ident e, comma, .num x, comma, .num y, comma, .path f] ++ w.toks ++ [.sym ')', semi]
  | .tflp e f q w => [kw "Tflp", .sym '(', .ident e, comma, .path f, comma, q.tok] ++ w.toks ++ [.sym ')', semi]
  | .tflpel e s f q w => [kw "Tflpel", .sym '(', .ident e, .sym '.', .ident s, comma, .path f, comma, q.tok] ++ w.toks ++ [.sym ')', semi]
  | .tmap e f w => [kw "Tmap", .sym '(', .ident e, comma, .path f] ++ w.toks ++ [.sym ')', semi]
  | .t3d f w => [kw "T3d", .sym '(', .path f] ++ w.toks ++ [.sym ')', semi]
  | .pmap e f w => [kw "Pmap", .sym '(', .ident e, comma, .path f] ++ w.toks ++ [.sym ')', semi]
  | .tcoolant e f q w => [kw "Tcoolant", .sym '(', .ident e, comma, .path f, comma, q.tok] ++ w.toks ++ [.sym ')', semi]

/-- A construct that may be missing. -/
def optToks {α : Type} (f : α → List Tok) : Option α → List Tok
  | none => []
  | some a => f a

/-- A stack file: its sections in the order they must have. -/
def StackD.toks (s : StackD) : List Tok :=
  s.mats.flatMap MatD.toks ++ (optToks TopD.toks s.top ++ (optToks (SinkD.toks "bottom") s.bottom ++ (optToks ChanD.toks s.chan ++ (s.dims.toks ++
  (s.layers.flatMap LayD.toks ++ (s.dies.flatMap DieD.toks ++ ([kw "stack", colon] ++ (s.elems.flatMap ElD.toks ++ (s.solver.toks ++
  (if s.points = [] then [] else [kw "output", colon] ++ s.points.flatMap PointD.toks))))))))))

/-- There is a material, a die and an element of the stack. -/
structure StackD.Ok (s : StackD) : Prop where
  mats : s.mats ≠ []
  dies : s.dies ≠ []
  elems : s.elems ≠ []

def rectToks (r : Rect ℚ) : List Tok :=
  [kw "rectangle", .sym '(', .num r.x, comma, .num r.y, comma, .num r.length, comma, .num r.width, .sym ')', semi]

def AreaD.toks : AreaD → List Tok
  | .one x y l w m d =>
    [kw "position", .num x, comma, .num y, semi, kw "dimension", .num l, comma, .num w, semi] ++
    optToks (fun n => [kw "material", .ident n, semi]) m ++ optToks (fun p => [kw "discretization", .num p.1, comma, .num p.2, semi]) d
  | .many rs => rs.flatMap rectToks

def AreaD.Ok : AreaD → Prop
  | .many rs => rs ≠ []
  | _ => True

def powersToks : List ℚ → List Tok
  | [] => []
  | p :: ps => [kw "power", kw "values", .num p] ++ ps.flatMap (fun q => [comma, .num q]) ++ [semi]

def FlpD.toks (f : FlpD) : List Tok := [.ident f.id, colon] ++ f.area.toks ++ powersToks f.powers

def LAreaD.toks : LAreaD → List Tok
  | .one x y l w => [kw "position", .num x, comma, .num y, semi, kw "dimension", .num l, comma, .num w, semi]
  | .many rs => rs.flatMap rectToks

def LAreaD.Ok : LAreaD → Prop
  | .many rs => rs ≠ []
  | _ => True

def LayoutD.toks (l : LayoutD) : List Tok := l.mats.flatMap MatD.toks ++ l.areas.flatMap fun a => [.ident a.1, colon] ++ a.2.toks

/-! ### The pieces of the parser -/

theorem lit_iff {l ts r : List Tok} : lit l ts = some r ↔ ts = l ++ r := by
  induction l generalizing ts with
  | nil => simp [lit]
  | cons t l ih =>
    cases ts with
    | nil => simp [lit]
    | cons u ts =>
      simp only [lit]
      split
      · next h => subst h; simp [ih]
      · next h => simp; intro h'; exact absurd h'.symm h

theorem num_iff {ts r : List Tok} {q : ℚ} : num ts = some (q, r) ↔ ts = .num q :: r := by
  unfold num; split <;> simp_all
theorem ident_iff {ts r : List Tok} {q : String} : ident ts = some (q, r) ↔ ts = .ident q :: r := by
  unfold ident; split <;> simp_all
theorem path_iff {ts r : List Tok} {q : String} : path ts = some (q, r) ↔ ts = .path q :: r := by
  unfold path; split <;> simp_all

theorem field_iff {l ts r : List Tok} {q : ℚ} : field l ts = some (q, r) ↔ ts = l ++ .num q :: semi :: r := by
  simp [field, Option.bind_eq_some_iff, semi, lit_iff, num_iff]
theorem fieldId_iff {l ts r : List Tok} {q : String} : fieldId l ts = some (q, r) ↔ ts = l ++ .ident q :: semi :: r := by
  simp [fieldId, Option.bind_eq_some_iff, semi, lit_iff, ident_iff]

/-- The next token does not satisfy `k`. -/
def Not (k : Tok → Bool) (r : List Tok) : Prop := next k r = false

/-- What `opt` reads. -/
theorem opt_iff {α : Type} {k : Tok → Bool} {p : P α} {ts r : List Tok} {o : Option α} :
    opt k p ts = some (o, r) ↔ (o = none ∧ ts = r ∧ next k r = false) ∨ (∃ a, o = some a ∧ next k ts = true ∧ p ts = some (a, r)) := by
  unfold opt
  by_cases h : next k ts = true
  · rw [if_pos h]
    simp only [Option.map_eq_some_iff, Prod.exists]
    constructor
    · rintro ⟨a, b, hp, e⟩
      injection e with e1 e2
      subst e1; subst e2
      exact Or.inr ⟨a, rfl, h, hp⟩
    · rintro (⟨rfl, rfl, hn⟩ | ⟨a, rfl, _, hp⟩)
      · rw [h] at hn; exact absurd hn (by decide)
      · exact ⟨a, r, hp, rfl⟩
  · rw [if_neg h]
    constructor
    · intro e
      injection e with e
      injection e with e1 e2
      subst e1; subst e2
      exact Or.inl ⟨rfl, rfl, by simpa using h⟩
    · rintro (⟨rfl, rfl, _⟩ | ⟨a, _, h', _⟩)
      · rfl
      · exact absurd h' h

/-- `p` reads exactly what `pr` writes of the documents that are `ok`, when what follows satisfies `F`. -/
structure Reads {α : Type} (p : P α) (pr : α → List Tok) (ok : α → Prop) (F : List Tok → Prop) : Prop where
  sound : ∀ {ts a r}, p ts = some (a, r) → ts = pr a ++ r ∧ ok a
  complete : ∀ {a r}, ok a → F r → p (pr a ++ r) = some (a, r)

def Any {α : Type} : α → Prop := fun _ => True
theorem any {α : Type} (a : α) : Any a := trivial

/-- One step of a parser, forwards. -/
macro "fld" : tactic => `(tactic| refine Option.bind_eq_some_iff.mpr ⟨(_, _), field_iff.mpr rfl, ?_⟩)
macro "fid" : tactic => `(tactic| refine Option.bind_eq_some_iff.mpr ⟨(_, _), fieldId_iff.mpr rfl, ?_⟩)
macro "lt" : tactic => `(tactic| refine Option.bind_eq_some_iff.mpr ⟨_, lit_iff.mpr rfl, ?_⟩)
macro "nm" : tactic => `(tactic| refine Option.bind_eq_some_iff.mpr ⟨(_, _), num_iff.mpr rfl, ?_⟩)
macro "idt" : tactic => `(tactic| refine Option.bind_eq_some_iff.mpr ⟨(_, _), ident_iff.mpr rfl, ?_⟩)
macro "pth" : tactic => `(tactic| refine Option.bind_eq_some_iff.mpr ⟨(_, _), path_iff.mpr rfl, ?_⟩)
macro "lastF" : tactic => `(tactic| exact Option.map_eq_some_iff.mpr ⟨(_, _), field_iff.mpr rfl, rfl⟩)

section
attribute [local simp] lit num ident path next isKw isSym isIdent field fieldId kw semi colon comma Not Any any

theorem reads_cond : Reads pCond CondD.toks Any (Not (isSym ',')) := by
  constructor
  · intro ts a r h
    unfold pCond at h
    simp only [Option.bind_eq_some_iff, Prod.exists, num_iff] at h
    obtain ⟨a, b, rfl, h⟩ := h
    split at h
    · simp only [Option.bind_eq_some_iff, Option.map_eq_some_iff, Prod.exists, num_iff, lit_iff] at h
      obtain ⟨_, rfl, _, _, rfl, _, rfl, _, _, rfl, e⟩ := h
      injection e with e1 e2; subst e1; subst e2
      simp [CondD.toks]
    · injection h with e; injection e with e1 e2; subst e1; subst e2
      simp [CondD.toks]
  · intro a r _ h
    cases a with
    | iso k =>
      simp only [pCond, CondD.toks, List.cons_append, List.nil_append, num, Option.bind_some]
      rw [if_neg (by simp only [Not] at h; rw [h]; decide)]
    | aniso => simp [pCond, CondD.toks]

theorem reads_mat : Reads pMat MatD.toks Any Any := by
  constructor
  · intro ts a r h
    unfold pMat at h
    simp only [Option.bind_eq_some_iff, Option.map_eq_some_iff, Prod.exists, lit_iff, ident_iff, field_iff] at h
    obtain ⟨t, rfl, n, s, rfl, u, rfl, c, v, hc, w, rfl, q, x, rfl, e⟩ := h
    obtain ⟨rfl, _⟩ := reads_cond.sound hc
    injection e with e1 e2; subst e1; subst e2
    simp [MatD.toks]
  · intro a r _ h
    unfold pMat MatD.toks
    simp only [List.append_assoc, List.cons_append, List.nil_append]
    lt; idt; lt
    refine Option.bind_eq_some_iff.mpr ⟨(_, _), reads_cond.complete trivial rfl, ?_⟩
    lt; lastF

theorem reads_sink (side : String) : Reads (pSink side) (SinkD.toks side) Any Any := by
  constructor
  · intro ts a r h
    unfold pSink at h
    simp only [Option.bind_eq_some_iff, Option.map_eq_some_iff, Prod.exists, field_iff] at h
    obtain ⟨_, _, rfl, _, _, rfl, e⟩ := h
    injection e with e1 e2; subst e1; subst e2
    simp [SinkD.toks]
  · intro a r _ h
    simp [pSink, SinkD.toks]

theorem reads_plug : Reads pPlug PlugD.toks Any Any := by
  constructor
  · intro ts a r h
    unfold pPlug at h
    simp only [Option.bind_eq_some_iff, Option.map_eq_some_iff, Prod.exists, field_iff, fieldId_iff, lit_iff, num_iff, path_iff, opt_iff] at h
    obtain ⟨_, rfl, _, _, rfl, _, rfl, _, _, rfl, _, _, rfl, _, _, rfl, _, rfl, _, _, rfl, o, _, h, _, rfl, e⟩ := h
    injection e with e1 e2; subst e1; subst e2
    rcases h with ⟨rfl, rfl, _⟩ | ⟨a, rfl, _, _, rfl, rfl⟩ <;> simp [PlugD.toks]
  · intro a r _ h
    rcases a with ⟨l, w, h, m, p, _ | a⟩ <;> simp [pPlug, PlugD.toks, opt]

theorem reads_top : Reads pTop TopD.toks Any Any := by
  constructor
  · intro ts a r h
    unfold pTop at h
    split at h
    · simp only [Option.map_eq_some_iff, Prod.exists] at h
      obtain ⟨_, _, h, e⟩ := h
      injection e with e1 e2; subst e1; subst e2
      exact ⟨(reads_plug.sound h).1, trivial⟩
    · simp only [Option.map_eq_some_iff, Prod.exists] at h
      obtain ⟨_, _, h, e⟩ := h
      injection e with e1 e2; subst e1; subst e2
      exact ⟨((reads_sink "top").sound h).1, trivial⟩
  · intro a r _ h
    cases a with
    | conv s =>
      have := (reads_sink "top").complete (a := s) (r := r) trivial trivial
      unfold pTop
      rw [TopD.toks, this, if_neg (by simp [SinkD.toks])]; rfl
    | plug p =>
      have := reads_plug.complete (a := p) (r := r) trivial trivial
      unfold pTop
      rw [TopD.toks, this, if_pos (by simp [PlugD.toks])]; rfl

def htc : List Tok := [kw "coolant", kw "heat", kw "transfer", kw "coefficient"]

theorem reads_htc4 : Reads pHtc4 (fun t => htc ++ t.toks) Any Any := by
  constructor
  · intro ts a r h
    unfold pHtc4 at h
    simp only [Option.bind_eq_some_iff, lit_iff] at h
    obtain ⟨_, rfl, h⟩ := h
    split at h
    · simp only [Option.bind_eq_some_iff, Option.map_eq_some_iff, Prod.exists, field_iff, fieldId_iff, lit_iff, num_iff, path_iff, opt_iff] at h
      obtain ⟨_, rfl, _, _, rfl, _, rfl, _, _, rfl, _, _, rfl, e⟩ := h
      injection e with e1 e2; subst e1; subst e2
      simp [htc, Htc4.toks]
    · simp only [Option.bind_eq_some_iff, Option.map_eq_some_iff, Prod.exists, field_iff, fieldId_iff, lit_iff, num_iff, path_iff, opt_iff] at h
      obtain ⟨_, _, rfl, e⟩ := h
      injection e with e1 e2; subst e1; subst e2
      simp [htc, Htc4.toks]
  · intro a r _ h
    cases a <;> simp [pHtc4, Htc4.toks, htc]

theorem reads_htc2 : Reads pHtc2 (fun t => htc ++ t.toks) Any Any := by
  constructor
  · intro ts a r h
    unfold pHtc2 at h
    simp only [Option.bind_eq_some_iff, lit_iff] at h
    obtain ⟨_, rfl, h⟩ := h
    split at h
    · simp only [Option.bind_eq_some_iff, Option.map_eq_some_iff, Prod.exists, field_iff, fieldId_iff, lit_iff, num_iff, path_iff, opt_iff] at h
      obtain ⟨_, rfl, _, _, rfl, _, _, rfl, e⟩ := h
      injection e with e1 e2; subst e1; subst e2
      simp [htc, Htc2.toks]
    · simp only [Option.bind_eq_some_iff, Option.map_eq_some_iff, Prod.exists, field_iff, fieldId_iff, lit_iff, num_iff, path_iff, opt_iff] at h
      obtain ⟨_, _, rfl, e⟩ := h
      injection e with e1 e2; subst e1; subst e2
      simp [htc, Htc2.toks]
  · intro a r _ h
    cases a <;> simp [pHtc2, Htc2.toks, htc]


theorem wall_opt {which : String} {o : Option ℚ} {r : List Tok} (h : next (isKw which) r = false) :
    opt (isKw which) (field [.kw which, .kw "wall", .kw "length"]) (wallToks which o ++ r) = some (o, r) := by
  refine opt_iff.mpr ?_
  cases o with
  | none => exact Or.inl ⟨rfl, rfl, h⟩
  | some x => exact Or.inr ⟨x, rfl, by simp [wallToks], field_iff.mpr rfl⟩

theorem reads_4rm {h c w : ℚ} {f l : Option ℚ} {m : String} {fl : ℚ} {t : Htc4} {v i : ℚ} {r : List Tok} :
    p4rm ((ChanD.rm4 h c w f l m fl t v i).toks ++ r) = some (.rm4 h c w f l m fl t v i, r) := by
  have ht := @reads_htc4.complete t
  simp only [htc, List.cons_append, List.nil_append, List.append_assoc] at ht
  unfold p4rm ChanD.toks
  simp only [List.append_assoc, List.cons_append, List.nil_append]
  fld; fld; fld
  refine Option.bind_eq_some_iff.mpr ⟨(_, _), wall_opt (by cases l <;> rfl), ?_⟩
  refine Option.bind_eq_some_iff.mpr ⟨(_, _), wall_opt rfl, ?_⟩
  fid; fld
  refine Option.bind_eq_some_iff.mpr ⟨(_, _), ht trivial trivial, ?_⟩
  fld; lastF

theorem sound_4rm {ts r : List Tok} {x : ChanD} (h : p4rm ts = some (x, r)) : ts = x.toks ++ r := by
  unfold p4rm at h
  simp only [Option.bind_eq_some_iff, Option.map_eq_some_iff, Prod.exists, field_iff, fieldId_iff, lit_iff, num_iff, path_iff, opt_iff] at h
  obtain ⟨_, _, rfl, _, _, rfl, _, _, rfl, f, _, hf, l, _, hl, _, _, rfl, _, _, rfl, t, _, ht, _, _, rfl, _, _, rfl, e⟩ := h
  obtain ⟨rfl, _⟩ := reads_htc4.sound ht
  injection e with e1 e2; subst e1; subst e2
  rcases hf with ⟨rfl, rfl, _⟩ | ⟨_, rfl, _, rfl⟩ <;> rcases hl with ⟨rfl, rfl, _⟩ | ⟨_, rfl, _, rfl⟩ <;> simp [ChanD.toks, wallToks, htc]

theorem reads_2rm {h c w : ℚ} {m : String} {fl : ℚ} {t : Htc2} {v i : ℚ} {r : List Tok} :
    p2rm ((ChanD.rm2 h c w m fl t v i).toks ++ r) = some (.rm2 h c w m fl t v i, r) := by
  have ht := @reads_htc2.complete t
  simp only [htc, List.cons_append, List.nil_append, List.append_assoc] at ht
  unfold p2rm ChanD.toks
  simp only [List.append_assoc, List.cons_append, List.nil_append]
  fld; fld; fld; fid; fld
  refine Option.bind_eq_some_iff.mpr ⟨(_, _), ht trivial trivial, ?_⟩
  fld; lastF

theorem sound_2rm {ts r : List Tok} {x : ChanD} (h : p2rm ts = some (x, r)) : ts = x.toks ++ r := by
  unfold p2rm at h
  simp only [Option.bind_eq_some_iff, Option.map_eq_some_iff, Prod.exists, field_iff, fieldId_iff, lit_iff, num_iff, path_iff, opt_iff] at h
  obtain ⟨_, _, rfl, _, _, rfl, _, _, rfl, _, _, rfl, _, _, rfl, t, _, ht, _, _, rfl, _, _, rfl, e⟩ := h
  obtain ⟨rfl, _⟩ := reads_htc2.sound ht
  injection e with e1 e2; subst e1; subst e2
  simp [ChanD.toks, htc]

theorem distr_iff {ts r : List Tok} {b : Bool} : pDistr ts = some (b, r) ↔ ts = kw (if b then "staggered" else "inline") :: r := by
  cases ts with
  | nil => simp [pDistr]
  | cons t ts =>
    show (if t = .kw "inline" then some (false, ts) else if t = .kw "staggered" then some (true, ts) else none) = _ ↔ _
    by_cases h1 : t = .kw "inline"
    · rw [if_pos h1]; subst h1; cases b <;> simp
    · rw [if_neg h1]
      by_cases h2 : t = .kw "staggered"
      · rw [if_pos h2]; subst h2; cases b <;> simp
      · rw [if_neg h2]; cases b <;> simp [h1, h2]

theorem reads_pin {h d p : ℚ} {s : Bool} {m : String} {u v i : ℚ} {r : List Tok} :
    pPin ((ChanD.pin h d p s m u v i).toks ++ r) = some (.pin h d p s m u v i, r) := by
  unfold pPin ChanD.toks
  simp only [List.append_assoc, List.cons_append, List.nil_append]
  fld; fld; fld; lt
  refine Option.bind_eq_some_iff.mpr ⟨(_, _), distr_iff.mpr rfl, ?_⟩
  lt; fid; fld; fld; lastF

theorem sound_pin {ts r : List Tok} {x : ChanD} (h : pPin ts = some (x, r)) : ts = x.toks ++ r := by
  unfold pPin at h
  simp only [Option.bind_eq_some_iff, Option.map_eq_some_iff, Prod.exists, field_iff, fieldId_iff, lit_iff, num_iff, path_iff, opt_iff, distr_iff] at h
  obtain ⟨_, _, rfl, _, _, rfl, _, _, rfl, _, rfl, s, _, rfl, _, rfl, _, _, rfl, _, _, rfl, _, _, rfl, _, _, rfl, e⟩ := h
  injection e with e1 e2; subst e1; subst e2
  simp [ChanD.toks]

theorem reads_chan : Reads pChan (optToks ChanD.toks) Any (fun r => Not (isKw "microchannel") r ∧ Not (isKw "pinfin") r) := by
  constructor
  · intro ts a r h
    unfold pChan at h
    refine ⟨?_, trivial⟩
    split at h
    · simp only [Option.map_eq_some_iff, Prod.exists] at h
      obtain ⟨x, _, h, e⟩ := h
      injection e with e1 e2; subst e1; subst e2
      split at h
      · exact sound_4rm h
      · exact sound_2rm h
    · rw [opt_iff] at h
      rcases h with ⟨rfl, rfl, _⟩ | ⟨x, rfl, _, h⟩
      · rfl
      · exact sound_pin h
  · rintro (_ | x) r _ ⟨h1, h2⟩
    · simp only [Not] at h1 h2
      simp [pChan, optToks, opt, h1, h2, -next]
    · unfold pChan optToks
      cases x with
      | rm4 h c w f l m fl t v i =>
        rw [if_pos (by simp [ChanD.toks]), if_pos (by simp [ChanD.toks]), reads_4rm]; rfl
      | rm2 h c w m fl t v i =>
        rw [if_pos (by simp [ChanD.toks]), if_neg (by simp [ChanD.toks]), reads_2rm]; rfl
      | pin h d p s m u v i =>
        rw [if_neg (by simp [ChanD.toks]), opt, if_pos (by simp [ChanD.toks]), reads_pin]; rfl

theorem flag_iff {ts r : List Tok} {b : Bool} : pFlag ts = some (b, r) ↔ ts = kw "non-uniform" :: kw (if b then "true" else "false") :: semi :: r := by
  unfold pFlag
  simp only [Option.bind_eq_some_iff, lit_iff]
  constructor
  · rintro ⟨ts, rfl, h⟩
    split at h
    · simp only [Option.map_eq_some_iff, lit_iff] at h
      obtain ⟨_, rfl, e⟩ := h
      injection e with e1 e2; subst e1; subst e2; simp
    · simp only [Option.map_eq_some_iff, lit_iff] at h
      obtain ⟨_, rfl, e⟩ := h
      injection e with e1 e2; subst e1; subst e2; simp
  · rintro rfl
    refine ⟨_, rfl, ?_⟩
    cases b <;> simp

theorem reads_dims : Reads pDims DimD.toks Any (Not (isKw "non-uniform")) := by
  constructor
  · intro ts a r h
    unfold pDims at h
    simp only [Option.bind_eq_some_iff, Option.map_eq_some_iff, Prod.exists, field_iff, fieldId_iff, lit_iff, num_iff, path_iff, opt_iff, flag_iff] at h
    obtain ⟨_, rfl, _, _, rfl, _, _, rfl, _, rfl, _, _, rfl, _, _, rfl, _, _, h, e⟩ := h
    injection e with e1 e2; subst e1; subst e2
    rcases h with ⟨rfl, rfl, _⟩ | ⟨b, rfl, _, rfl⟩ <;> simp [DimD.toks]
  · intro a r _ h
    rcases a with ⟨a, b, c, d, _ | _ | _⟩
    · simp only [Not] at h
      have : opt (isKw "non-uniform") pFlag r = some (none, r) := opt_iff.mpr (Or.inl ⟨rfl, rfl, h⟩)
      simp [pDims, DimD.toks, this, -next]
    · simp [pDims, DimD.toks, opt, pFlag]
    · simp [pDims, DimD.toks, opt, pFlag]

theorem layout_iff {ts r : List Tok} {f : String} : pLayout ts = some (f, r) ↔ ts = kw "layout" :: .path f :: semi :: r := by
  unfold pLayout
  simp only [Option.bind_eq_some_iff, Option.map_eq_some_iff, Prod.exists, lit_iff, path_iff]
  constructor
  · rintro ⟨_, rfl, _, _, rfl, _, rfl, e⟩
    injection e with e1 e2; subst e1; subst e2; rfl
  · rintro rfl; exact ⟨_, rfl, f, _, rfl, r, rfl, rfl⟩

theorem reads_layer : Reads pLayer LayD.toks Any (Not (isKw "layout")) := by
  constructor
  · intro ts a r h
    unfold pLayer at h
    simp only [Option.bind_eq_some_iff, Option.map_eq_some_iff, Prod.exists, field_iff, fieldId_iff, lit_iff, num_iff, path_iff, ident_iff, opt_iff, layout_iff] at h
    obtain ⟨_, rfl, _, _, rfl, _, _, rfl, _, _, rfl, _, _, h, e⟩ := h
    injection e with e1 e2; subst e1; subst e2
    rcases h with ⟨rfl, rfl, _⟩ | ⟨b, rfl, _, rfl⟩ <;> simp [LayD.toks]
  · intro a r _ h
    rcases a with ⟨a, b, c, _ | f⟩
    · have : opt (isKw "layout") pLayout r = some (none, r) := opt_iff.mpr (Or.inl ⟨rfl, rfl, h⟩)
      simp [pLayer, LayD.toks, this, -next]
    · simp [pLayer, LayD.toks, opt, pLayout]

theorem reads_dlay (k : String) : Reads (pDLay k) (DLayD.toks k) Any Any := by
  constructor
  · intro ts a r h
    unfold pDLay at h
    simp only [Option.bind_eq_some_iff, lit_iff] at h
    obtain ⟨_, rfl, h⟩ := h
    split at h
    · simp only [Option.bind_eq_some_iff, Option.map_eq_some_iff, Prod.exists, field_iff, fieldId_iff, lit_iff, num_iff] at h
      obtain ⟨_, _, rfl, e⟩ := h
      injection e with e1 e2; subst e1; subst e2; simp [DLayD.toks]
    · simp only [Option.bind_eq_some_iff, Option.map_eq_some_iff, Prod.exists, field_iff, fieldId_iff, lit_iff, num_iff] at h
      obtain ⟨_, _, rfl, _, _, rfl, e⟩ := h
      injection e with e1 e2; subst e1; subst e2; simp [DLayD.toks]
  · intro a r _ _
    cases a <;> simp [pDLay, DLayD.toks]

/-- Lists of constructs. -/
theorem many_sound {α : Type} {k : Tok → Bool} {p : P α} {pr : α → List Tok} {ok : α → Prop} {F : List Tok → Prop} (h : Reads p pr ok F) :
    ∀ {n ts l r}, many k p n ts = some (l, r) → ts = l.flatMap pr ++ r ∧ (∀ a ∈ l, ok a) ∧ Not k r
  | 0, ts, l, r, e => by
    unfold many at e
    split at e
    · exact absurd e (by simp)
    · next hn =>
      injection e with e; injection e with e1 e2; subst e1; subst e2
      exact ⟨rfl, by simp, by simpa [-next] using hn⟩
  | n + 1, ts, l, r, e => by
    unfold many at e
    split at e
    · simp only [Option.bind_eq_some_iff, Option.map_eq_some_iff, Prod.exists] at e
      obtain ⟨a, b, ha, c, d, hc, e⟩ := e
      injection e with e1 e2; subst e1; subst e2
      obtain ⟨rfl, h1⟩ := h.sound ha
      obtain ⟨rfl, h2, h3⟩ := many_sound h hc
      exact ⟨by simp, by simpa using ⟨h1, h2⟩, h3⟩
    · next hn =>
      injection e with e; injection e with e1 e2; subst e1; subst e2
      exact ⟨rfl, by simp, by simpa [-next] using hn⟩

theorem many_complete {α : Type} {k : Tok → Bool} {p : P α} {pr : α → List Tok} {ok : α → Prop} {F : List Tok → Prop} (h : Reads p pr ok F)
    (hk : ∀ a r, next k (pr a ++ r) = true) (hF : ∀ a r, F (pr a ++ r)) :
    ∀ {l : List α} {r : List Tok} {n : Nat}, (∀ a ∈ l, ok a) → Not k r → F r → l.length ≤ n → many k p n (l.flatMap pr ++ r) = some (l, r)
  | [], r, 0, _, h1, _, _ => by
    show (if next k r = true then none else some (([] : List α), r)) = _
    rw [if_neg (by rw [show next k r = false from h1]; decide)]
  | [], r, n + 1, _, h1, _, _ => by
    rw [List.flatMap_nil, List.nil_append, many, if_neg (by rw [show next k r = false from h1]; decide)]
  | a :: l, r, 0, _, _, _, hn => absurd hn (by simp)
  | a :: l, r, n + 1, ho, h1, h2, hn => by
    have ih := many_complete h hk hF (l := l) (r := r) (n := n) (fun b hb => ho b (by simp [hb])) h1 h2 (by simpa using hn)
    have hf : F (l.flatMap pr ++ r) := by
      cases l with
      | nil => exact h2
      | cons b l => rw [List.flatMap_cons, List.append_assoc]; exact hF _ _
    rw [List.flatMap_cons, List.append_assoc, many, if_pos (hk _ _), h.complete (ho a (by simp)) hf]
    simp only [Option.bind_some, ih, Option.map_some]

theorem flatMap_length {α : Type} {pr : α → List Tok} (h : ∀ a, pr a ≠ []) (l : List α) : l.length ≤ (l.flatMap pr).length := by
  induction l with
  | nil => simp
  | cons a l ih =>
    have := List.length_pos_iff.mpr (h a)
    simp only [List.flatMap_cons, List.length_append, List.length_cons]
    omega

theorem next_ne {k : Tok → Bool} {l : List Tok} (h : ∀ r, next k (l ++ r) = true) : l ≠ [] := by
  rintro rfl
  have := h []
  simp at this

/-- Lists, as the parser calls them. -/
theorem reads_many {α : Type} {k : Tok → Bool} {p : P α} {pr : α → List Tok} {ok : α → Prop} {F : List Tok → Prop} (h : Reads p pr ok F)
    (hk : ∀ a r, next k (pr a ++ r) = true) (hF : ∀ a r, F (pr a ++ r)) :
    Reads (fun ts => many k p ts.length ts) (fun l => l.flatMap pr) (fun l => ∀ a ∈ l, ok a) (fun r => Not k r ∧ F r) where
  sound := fun e => ⟨(many_sound h e).1, (many_sound h e).2.1⟩
  complete := fun {l r} ho hr => many_complete h hk hF ho hr.1 hr.2 (by
    have := flatMap_length (fun a => next_ne (hk a)) l
    simp only [List.length_append]; omega)

theorem reads_many1 {α : Type} {k : Tok → Bool} {p : P α} {pr : α → List Tok} {ok : α → Prop} {F : List Tok → Prop} (h : Reads p pr ok F)
    (hk : ∀ a r, next k (pr a ++ r) = true) (hF : ∀ a r, F (pr a ++ r)) :
    Reads (many1 k p) (fun l => l.flatMap pr) (fun l => l ≠ [] ∧ ∀ a ∈ l, ok a) (fun r => Not k r ∧ F r) where
  sound := fun {ts l r} e => by
    unfold many1 at e
    simp only [Option.bind_eq_some_iff, Prod.exists] at e
    obtain ⟨a, b, h1, h2⟩ := e
    split at h2
    · exact absurd h2 (by simp)
    · next hn =>
      injection h2 with e; injection e with e1 e2; subst e1; subst e2
      exact ⟨(many_sound h h1).1, by simpa using hn, (many_sound h h1).2.1⟩
  complete := fun {l r} ho hr => by
    unfold many1
    rw [(reads_many h hk hF).complete ho.2 hr]
    simp only [Option.bind_some]
    rw [if_neg (by simpa using ho.1)]

end
end Verif.Gram
