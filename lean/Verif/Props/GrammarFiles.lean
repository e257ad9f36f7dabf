import Verif.Props.Grammar

set_option linter.unusedSimpArgs false
set_option linter.unusedVariables false

/-! ## C66: the grammar of the input files (continued) -/

namespace Verif.Gram
open Verif.Scan Verif.TG

section
attribute [local simp] lit num ident path next isKw isSym isIdent field fieldId kw semi colon comma Not Any any

/-! ### Dies and stack elements -/

theorem dlays : Reads (fun ts => many (isKw "layer") (pDLay "layer") ts.length ts) (fun l => l.flatMap (DLayD.toks "layer")) (fun l => ∀ a ∈ l, Any a)
    (fun r => Not (isKw "layer") r ∧ Any r) :=
  reads_many (reads_dlay "layer") (by intro a r; cases a <;> rfl) (fun _ _ => trivial)

theorem reads_die : Reads pDie DieD.toks Any (Not (isKw "layer")) := by
  constructor
  · intro ts a r h
    unfold pDie at h
    simp only [Option.bind_eq_some_iff, Option.map_eq_some_iff, Prod.exists, lit_iff, ident_iff] at h
    obtain ⟨_, rfl, n, _, rfl, _, rfl, a, _, ha, s, _, hs, b, _, hb, e⟩ := h
    injection e with e1 e2; subst e1; subst e2
    obtain ⟨rfl, _⟩ := dlays.sound ha
    obtain ⟨rfl, _⟩ := (reads_dlay "source").sound hs
    obtain ⟨rfl, _⟩ := dlays.sound hb
    simp [DieD.toks]
  · intro a r _ h
    unfold pDie DieD.toks
    simp only [List.append_assoc, List.cons_append, List.nil_append]
    lt; idt; lt
    refine Option.bind_eq_some_iff.mpr ⟨(_, _), dlays.complete (fun _ _ => trivial) ⟨?_, trivial⟩, ?_⟩
    · cases a.source <;> rfl
    refine Option.bind_eq_some_iff.mpr ⟨(_, _), (reads_dlay "source").complete trivial trivial, ?_⟩
    exact Option.map_eq_some_iff.mpr ⟨(_, _), dlays.complete (fun _ _ => trivial) ⟨h, trivial⟩, rfl⟩

theorem discr_opt {o : Option (ℚ × ℚ)} {r : List Tok} (h : next (isKw "discretization") r = false) :
    opt (isKw "discretization") pDiscr (discrToks o ++ r) = some (o, r) := by
  refine opt_iff.mpr ?_
  cases o with
  | none => exact Or.inl ⟨rfl, rfl, h⟩
  | some x => exact Or.inr ⟨x, rfl, by rfl, by rfl⟩

theorem discr_sound {ts r : List Tok} {x : ℚ × ℚ} (h : pDiscr ts = some (x, r)) : ts = discrToks (some x) ++ r := by
  unfold pDiscr at h
  simp only [Option.bind_eq_some_iff, Option.map_eq_some_iff, Prod.exists, lit_iff, num_iff] at h
  obtain ⟨_, rfl, _, _, rfl, _, _, rfl, e⟩ := h
  injection e with e1 e2; subst e1; subst e2
  rfl

theorem discr_opt_sound {ts r : List Tok} {o : Option (ℚ × ℚ)} (h : opt (isKw "discretization") pDiscr ts = some (o, r)) : ts = discrToks o ++ r := by
  rcases opt_iff.mp h with ⟨rfl, rfl, _⟩ | ⟨x, rfl, _, h⟩
  · rfl
  · exact discr_sound h

theorem reads_elem : Reads pElem ElD.toks Any Any := by
  constructor
  · intro ts a r h
    unfold pElem at h
    refine ⟨?_, trivial⟩
    split at h
    · simp only [Option.bind_eq_some_iff, Option.map_eq_some_iff, Prod.exists, lit_iff, ident_iff] at h
      obtain ⟨_, rfl, _, _, rfl, _, _, rfl, d, _, hd, _, rfl, e⟩ := h
      injection e with e1 e2; subst e1; subst e2
      rw [discr_opt_sound hd]; simp [ElD.toks]
    · split at h
      · simp only [Option.map_eq_some_iff, Prod.exists, fieldId_iff] at h
        obtain ⟨_, _, rfl, e⟩ := h
        injection e with e1 e2; subst e1; subst e2
        simp [ElD.toks]
      · simp only [Option.bind_eq_some_iff, Option.map_eq_some_iff, Prod.exists, lit_iff, ident_iff, path_iff] at h
        obtain ⟨_, rfl, _, _, rfl, _, _, rfl, _, rfl, _, _, rfl, d, _, hd, _, rfl, e⟩ := h
        injection e with e1 e2; subst e1; subst e2
        rw [discr_opt_sound hd]; simp [ElD.toks]
  · intro a r _ _
    unfold pElem ElD.toks
    cases a with
    | layer n f d =>
      simp only [List.append_assoc, List.cons_append, List.nil_append]
      rw [if_pos (by simp)]
      lt; idt; idt
      refine Option.bind_eq_some_iff.mpr ⟨(_, _), discr_opt rfl, ?_⟩
      exact Option.map_eq_some_iff.mpr ⟨_, lit_iff.mpr rfl, rfl⟩
    | channel n =>
      simp only [List.append_assoc, List.cons_append, List.nil_append]
      rw [if_neg (by simp), if_pos (by simp)]
      exact Option.map_eq_some_iff.mpr ⟨(_, _), fieldId_iff.mpr rfl, rfl⟩
    | die n f p d =>
      simp only [List.append_assoc, List.cons_append, List.nil_append]
      rw [if_neg (by simp), if_neg (by simp)]
      lt; idt; idt; lt; pth
      refine Option.bind_eq_some_iff.mpr ⟨(_, _), discr_opt rfl, ?_⟩
      exact Option.map_eq_some_iff.mpr ⟨_, lit_iff.mpr rfl, rfl⟩

/-! ### Solver and output -/

theorem reads_solver : Reads pSolver SolverD.toks Any (Not (isKw "numofcores")) := by
  constructor
  · intro ts a r h
    unfold pSolver at h
    simp only [Option.bind_eq_some_iff, Option.map_eq_some_iff, Prod.exists, lit_iff, field_iff, opt_iff] at h
    obtain ⟨_, rfl, k, _, hk, _, _, rfl, c, _, hc, e⟩ := h
    injection e with e1 e2; subst e1; subst e2
    refine ⟨?_, trivial⟩
    unfold pKind at hk
    split at hk
    · simp only [Option.map_eq_some_iff, lit_iff] at hk
      obtain ⟨_, rfl, e⟩ := hk
      injection e with e1 e2; subst e1; subst e2
      rcases hc with ⟨rfl, rfl, _⟩ | ⟨_, rfl, _, rfl⟩ <;> simp [SolverD.toks]
    · simp only [Option.bind_eq_some_iff, Option.map_eq_some_iff, Prod.exists, lit_iff, num_iff, field_iff] at hk
      obtain ⟨_, rfl, _, _, rfl, _, _, rfl, e⟩ := hk
      injection e with e1 e2; subst e1; subst e2
      rcases hc with ⟨rfl, rfl, _⟩ | ⟨_, rfl, _, rfl⟩ <;> simp [SolverD.toks]
  · intro a r _ h
    have hc : opt (isKw "numofcores") (field [.kw "numofcores"]) ((match a.cores with | none => [] | some n => [kw "numofcores", .num n, semi]) ++ r) =
        some (a.cores, r) := by
      refine opt_iff.mpr ?_
      cases a.cores with
      | none => exact Or.inl ⟨rfl, rfl, h⟩
      | some x => exact Or.inr ⟨x, rfl, rfl, field_iff.mpr rfl⟩
    unfold pSolver SolverD.toks
    simp only [List.append_assoc, List.cons_append, List.nil_append]
    lt
    have hk : ∀ r, pKind ((match a.kind with | none => [kw "steady", semi] | some (st, sl) => [kw "transient", kw "step", .num st, comma, kw "slot", .num sl, semi]) ++ r) =
        some (a.kind, r) := by
      intro r
      cases a.kind <;> rfl
    refine Option.bind_eq_some_iff.mpr ⟨(_, _), hk _, ?_⟩
    fld
    exact Option.map_eq_some_iff.mpr ⟨(_, _), hc, rfl⟩

theorem reads_end : Reads pEnd (fun w => w.toks ++ [.sym ')', semi]) Any Any := by
  constructor
  · intro ts a r h
    unfold pEnd at h
    simp only [Option.bind_eq_some_iff, Option.map_eq_some_iff, Prod.exists, lit_iff] at h
    obtain ⟨w, t, hw, _, rfl, e⟩ := h
    injection e with e1 e2; subst e1; subst e2
    refine ⟨?_, trivial⟩
    unfold pWhen at hw
    split at hw
    · next hn =>
      cases ts with
      | nil => simp at hn
      | cons a ts =>
        obtain rfl : a = .sym ',' := by simpa using hn
        simp only [List.tail_cons] at hw
        cases ts with
        | nil => simp at hw
        | cons b ts =>
          simp only [next, isKw, decide_eq_true_eq] at hw
          split at hw
          · next hb => subst hb; injection hw with e; injection e with e1 e2; subst e1; simp only [List.tail_cons] at e2; subst e2; simp [WhenD.toks]
          · split at hw
            · next hb => subst hb; injection hw with e; injection e with e1 e2; subst e1; simp only [List.tail_cons] at e2; subst e2; simp [WhenD.toks]
            · split at hw
              · next hb => subst hb; injection hw with e; injection e with e1 e2; subst e1; simp only [List.tail_cons] at e2; subst e2; simp [WhenD.toks]
              · exact absurd hw (by simp)
    · injection hw with e; injection e with e1 e2; subst e1; subst e2
      simp [WhenD.toks]
  · intro a r _ _
    cases a <;> rfl

theorem quant_iff {ts r : List Tok} {q : QuantD} : pQuant ts = some (q, r) ↔ ts = q.tok :: r := by
  constructor
  · intro h
    cases ts with
    | nil => simp [pQuant] at h
    | cons t ts =>
      simp only [pQuant, next, isKw, decide_eq_true_eq, List.tail_cons] at h
      split at h
      · next e => subst e; injection h with h; injection h with h1 h2; subst h1; subst h2; rfl
      · split at h
        · next e => subst e; injection h with h; injection h with h1 h2; subst h1; subst h2; rfl
        · split at h
          · next e => subst e; injection h with h; injection h with h1 h2; subst h1; subst h2; rfl
          · split at h
            · next e => subst e; injection h with h; injection h with h1 h2; subst h1; subst h2; rfl
            · exact absurd h (by simp)
  · rintro rfl
    cases q <;> rfl

theorem reads_qend : Reads pQEnd (fun q => [comma, q.1.tok] ++ (q.2.toks ++ [.sym ')', semi])) Any Any := by
  constructor
  · intro ts a r h
    unfold pQEnd at h
    simp only [Option.bind_eq_some_iff, Option.map_eq_some_iff, Prod.exists, lit_iff, quant_iff] at h
    obtain ⟨_, rfl, _, _, rfl, _, _, hw, e⟩ := h
    injection e with e1 e2; subst e1; subst e2
    rw [(reads_end.sound hw).1]
    exact ⟨rfl, trivial⟩
  · intro a r _ _
    unfold pQEnd
    simp only [List.append_assoc, List.cons_append, List.nil_append]
    lt
    refine Option.bind_eq_some_iff.mpr ⟨(_, _), quant_iff.mpr rfl, ?_⟩
    have := reads_end.complete (a := a.2) (r := r) trivial trivial
    simp only [List.append_assoc, List.cons_append, List.nil_append] at this
    exact Option.map_eq_some_iff.mpr ⟨(_, _), this, rfl⟩

theorem of_iff {k : String} {ts r : List Tok} {e : String} : pOf k ts = some (e, r) ↔ ts = kw k :: .sym '(' :: .ident e :: r := by
  simp [pOf, Option.bind_eq_some_iff, lit_iff, ident_iff, -lit, -ident]
theorem file_iff {ts r : List Tok} {e : String} : pFile ts = some (e, r) ↔ ts = comma :: .path e :: r := by
  simp [pFile, Option.bind_eq_some_iff, lit_iff, path_iff, -lit, -path]

theorem reads_point : Reads pPoint PointD.toks Any Any := by
  constructor
  · intro ts a r h
    refine ⟨?_, trivial⟩
    unfold pPoint at h
    split at h
    · simp only [Option.bind_eq_some_iff, Option.map_eq_some_iff, Prod.exists, lit_iff, num_iff, ident_iff, path_iff, of_iff, file_iff] at h
      obtain ⟨_, _, rfl, _, rfl, _, _, rfl, _, rfl, _, _, rfl, _, _, rfl, _, _, hw, e⟩ := h
      injection e with e1 e2; subst e1; subst e2
      rw [(reads_end.sound hw).1]; simp [PointD.toks]
    split at h
    · simp only [Option.bind_eq_some_iff, Option.map_eq_some_iff, Prod.exists, lit_iff, num_iff, ident_iff, path_iff, of_iff, file_iff] at h
      obtain ⟨_, _, rfl, _, _, rfl, _, _, _, hw, e⟩ := h
      injection e with e1 e2; subst e1; subst e2
      rw [(reads_qend.sound hw).1]; simp [PointD.toks]
    split at h
    · simp only [Option.bind_eq_some_iff, Option.map_eq_some_iff, Prod.exists, lit_iff, num_iff, ident_iff, path_iff, of_iff, file_iff] at h
      obtain ⟨_, _, rfl, _, rfl, _, _, rfl, _, _, rfl, _, _, _, hw, e⟩ := h
      injection e with e1 e2; subst e1; subst e2
      rw [(reads_qend.sound hw).1]; simp [PointD.toks]
    split at h
    · simp only [Option.bind_eq_some_iff, Option.map_eq_some_iff, Prod.exists, lit_iff, num_iff, ident_iff, path_iff, of_iff, file_iff] at h
      obtain ⟨_, _, rfl, _, _, rfl, _, _, hw, e⟩ := h
      injection e with e1 e2; subst e1; subst e2
      rw [(reads_end.sound hw).1]; simp [PointD.toks]
    split at h
    · simp only [Option.bind_eq_some_iff, Option.map_eq_some_iff, Prod.exists, lit_iff, num_iff, ident_iff, path_iff, of_iff, file_iff] at h
      obtain ⟨_, rfl, _, _, rfl, _, _, hw, e⟩ := h
      injection e with e1 e2; subst e1; subst e2
      rw [(reads_end.sound hw).1]; simp [PointD.toks]
    split at h
    · simp only [Option.bind_eq_some_iff, Option.map_eq_some_iff, Prod.exists, lit_iff, num_iff, ident_iff, path_iff, of_iff, file_iff] at h
      obtain ⟨_, _, rfl, _, _, rfl, _, _, hw, e⟩ := h
      injection e with e1 e2; subst e1; subst e2
      rw [(reads_end.sound hw).1]; simp [PointD.toks]
    · simp only [Option.bind_eq_some_iff, Option.map_eq_some_iff, Prod.exists, lit_iff, num_iff, ident_iff, path_iff, of_iff, file_iff] at h
      obtain ⟨_, _, rfl, _, _, rfl, _, _, _, hw, e⟩ := h
      injection e with e1 e2; subst e1; subst e2
      rw [(reads_qend.sound hw).1]; simp [PointD.toks]
  · intro a r _ _
    have he := fun w => reads_end.complete (a := w) (r := r) trivial trivial
    have hq := fun w => reads_qend.complete (a := w) (r := r) trivial trivial
    simp only [List.append_assoc, List.cons_append, List.nil_append] at he hq
    unfold pPoint PointD.toks
    cases a with
    | tcell e x y f w =>
      simp only [List.append_assoc, List.cons_append, List.nil_append]
      rw [if_pos (by simp)]
      refine Option.bind_eq_some_iff.mpr ⟨(_, _), of_iff.mpr rfl, ?_⟩
      lt; nm; lt; nm
      refine Option.bind_eq_some_iff.mpr ⟨(_, _), file_iff.mpr rfl, ?_⟩
      exact Option.map_eq_some_iff.mpr ⟨(_, _), he w, rfl⟩
    | tflp e f q w =>
      simp only [List.append_assoc, List.cons_append, List.nil_append]
      rw [if_neg (by simp), if_pos (by simp)]
      refine Option.bind_eq_some_iff.mpr ⟨(_, _), of_iff.mpr rfl, ?_⟩
      refine Option.bind_eq_some_iff.mpr ⟨(_, _), file_iff.mpr rfl, ?_⟩
      exact Option.map_eq_some_iff.mpr ⟨(_, _), hq (q, w), rfl⟩
    | tflpel e s f q w =>
      simp only [List.append_assoc, List.cons_append, List.nil_append]
      rw [if_neg (by simp), if_neg (by simp), if_pos (by simp)]
      refine Option.bind_eq_some_iff.mpr ⟨(_, _), of_iff.mpr rfl, ?_⟩
      lt; idt
      refine Option.bind_eq_some_iff.mpr ⟨(_, _), file_iff.mpr rfl, ?_⟩
      exact Option.map_eq_some_iff.mpr ⟨(_, _), hq (q, w), rfl⟩
    | tmap e f w =>
      simp only [List.append_assoc, List.cons_append, List.nil_append]
      rw [if_neg (by simp), if_neg (by simp), if_neg (by simp), if_pos (by simp)]
      refine Option.bind_eq_some_iff.mpr ⟨(_, _), of_iff.mpr rfl, ?_⟩
      refine Option.bind_eq_some_iff.mpr ⟨(_, _), file_iff.mpr rfl, ?_⟩
      exact Option.map_eq_some_iff.mpr ⟨(_, _), he w, rfl⟩
    | t3d f w =>
      simp only [List.append_assoc, List.cons_append, List.nil_append]
      rw [if_neg (by simp), if_neg (by simp), if_neg (by simp), if_neg (by simp), if_pos (by simp)]
      lt; pth
      exact Option.map_eq_some_iff.mpr ⟨(_, _), he w, rfl⟩
    | pmap e f w =>
      simp only [List.append_assoc, List.cons_append, List.nil_append]
      rw [if_neg (by simp), if_neg (by simp), if_neg (by simp), if_neg (by simp), if_neg (by simp), if_pos (by simp)]
      refine Option.bind_eq_some_iff.mpr ⟨(_, _), of_iff.mpr rfl, ?_⟩
      refine Option.bind_eq_some_iff.mpr ⟨(_, _), file_iff.mpr rfl, ?_⟩
      exact Option.map_eq_some_iff.mpr ⟨(_, _), he w, rfl⟩
    | tcoolant e f q w =>
      simp only [List.append_assoc, List.cons_append, List.nil_append]
      rw [if_neg (by simp), if_neg (by simp), if_neg (by simp), if_neg (by simp), if_neg (by simp), if_neg (by simp)]
      refine Option.bind_eq_some_iff.mpr ⟨(_, _), of_iff.mpr rfl, ?_⟩
      refine Option.bind_eq_some_iff.mpr ⟨(_, _), file_iff.mpr rfl, ?_⟩
      exact Option.map_eq_some_iff.mpr ⟨(_, _), hq (q, w), rfl⟩

theorem points1 : Reads (many1 (fun _ => true) pPoint) (fun l => l.flatMap PointD.toks) (fun l => l ≠ [] ∧ ∀ a ∈ l, Any a) (fun r => Not (fun _ => true) r ∧ Any r) :=
  reads_many1 reads_point (by intro a r; cases a <;> rfl) (fun _ _ => trivial)

/-! ### The stack file -/

theorem mats1 : Reads (many1 (isKw "material") pMat) (fun l => l.flatMap MatD.toks) (fun l => l ≠ [] ∧ ∀ a ∈ l, Any a) (fun r => Not (isKw "material") r ∧ Any r) :=
  reads_many1 reads_mat (by intro a r; rfl) (fun _ _ => trivial)
theorem mats0 : Reads (fun ts => many (isKw "material") pMat ts.length ts) (fun l => l.flatMap MatD.toks) (fun l => ∀ a ∈ l, Any a)
    (fun r => Not (isKw "material") r ∧ Any r) :=
  reads_many reads_mat (by intro a r; rfl) (fun _ _ => trivial)
theorem layers0 : Reads (fun ts => many (isKw "layer") pLayer ts.length ts) (fun l => l.flatMap LayD.toks) (fun l => ∀ a ∈ l, Any a)
    (fun r => Not (isKw "layer") r ∧ Not (isKw "layout") r) :=
  reads_many reads_layer (by intro a r; rfl) (fun _ _ => rfl)
theorem dies1 : Reads (many1 (isKw "die") pDie) (fun l => l.flatMap DieD.toks) (fun l => l ≠ [] ∧ ∀ a ∈ l, Any a)
    (fun r => Not (isKw "die") r ∧ Not (isKw "layer") r) :=
  reads_many1 reads_die (by intro a r; rfl) (fun _ _ => rfl)
theorem elems1 : Reads (many1 (fun t => isKw "layer" t || isKw "channel" t || isKw "die" t) pElem) (fun l => l.flatMap ElD.toks)
    (fun l => l ≠ [] ∧ ∀ a ∈ l, Any a) (fun r => Not (fun t => isKw "layer" t || isKw "channel" t || isKw "die" t) r ∧ Any r) :=
  reads_many1 reads_elem (by intro a r; cases a <;> rfl) (fun _ _ => trivial)

theorem reads_opt {α : Type} {k : Tok → Bool} {p : P α} {pr : α → List Tok} {ok : α → Prop} {F : List Tok → Prop} (h : Reads p pr ok F)
    (hk : ∀ a r, next k (pr a ++ r) = true) :
    Reads (opt k p) (optToks pr) (fun o => ∀ a ∈ o, ok a) (fun r => Not k r ∧ F r) where
  sound := fun {ts o r} e => by
    rcases opt_iff.mp e with ⟨rfl, rfl, _⟩ | ⟨a, rfl, _, hp⟩
    · exact ⟨rfl, by simp⟩
    · exact ⟨(h.sound hp).1, by simpa using (h.sound hp).2⟩
  complete := fun {o r} ho hr => by
    refine opt_iff.mpr ?_
    cases o with
    | none => exact Or.inl ⟨rfl, rfl, hr.1⟩
    | some a => exact Or.inr ⟨a, rfl, hk a r, h.complete (ho a rfl) hr.2⟩

theorem top0 : Reads (opt (isKw "top") pTop) (optToks TopD.toks) (fun o => ∀ a ∈ o, Any a) (fun r => Not (isKw "top") r ∧ Any r) :=
  reads_opt reads_top (by intro a r; cases a <;> rfl)
theorem bottom0 : Reads (opt (isKw "bottom") (pSink "bottom")) (optToks (SinkD.toks "bottom")) (fun o => ∀ a ∈ o, Any a) (fun r => Not (isKw "bottom") r ∧ Any r) :=
  reads_opt (reads_sink "bottom") (by intro a r; rfl)

theorem points_complete {ps : List PointD} :
    pPoints (if ps = [] then [] else [kw "output", colon] ++ ps.flatMap PointD.toks) = some (ps, []) := by
  by_cases h : ps = []
  · subst h; rfl
  · rw [if_neg h]
    unfold pPoints
    rw [if_pos (by rfl)]
    refine Option.bind_eq_some_iff.mpr ⟨_, lit_iff.mpr rfl, ?_⟩
    have := points1.complete (a := ps) (r := []) ⟨h, fun _ _ => trivial⟩ ⟨rfl, trivial⟩
    simpa using this

theorem points_sound {ts : List Tok} {ps : List PointD} (h : pPoints ts = some (ps, [])) :
    ts = if ps = [] then [] else [kw "output", colon] ++ ps.flatMap PointD.toks := by
  unfold pPoints at h
  split at h
  · simp only [Option.bind_eq_some_iff, lit_iff] at h
    obtain ⟨_, rfl, h⟩ := h
    obtain ⟨rfl, hn, _⟩ := points1.sound h
    rw [if_neg hn]; simp
  · injection h with e; injection e with e1 e2; subst e1; subst e2; rfl

/-- The keyword at the beginning of a text. -/
def heads (ks : List String) (r : List Tok) : Prop := ∃ k ∈ ks, ∃ r', r = .kw k :: r'

theorem not_of_heads {ks : List String} {k : String} {r : List Tok} (h : heads ks r) (hk : k ∉ ks) : next (isKw k) r = false := by
  obtain ⟨k', h', r', rfl⟩ := h
  simp only [next, isKw, Tok.kw.injEq, decide_eq_false_iff_not]
  rintro rfl
  exact hk h'

/-- **C66** The parser of stack files accepts exactly the token sequences that are written forms of documents, and finds the document
back. -/
theorem C66_stack {ts : List Tok} {s : StackD} : parseStackFile ts = some s ↔ s.Ok ∧ s.toks = ts := by
  constructor
  · intro h
    unfold parseStackFile at h
    simp only [Option.bind_eq_some_iff, Prod.exists, lit_iff] at h
    obtain ⟨m, _, hm, t, _, ht, b, _, hb, c, _, hc, d, _, hd, l, _, hl, i, _, hi, _, rfl, e, _, he, s', _, hs, p, q, hp, h⟩ := h
    obtain ⟨rfl, hm0, _⟩ := mats1.sound hm
    obtain ⟨rfl, _⟩ := top0.sound ht
    obtain ⟨rfl, _⟩ := bottom0.sound hb
    obtain ⟨rfl, _⟩ := reads_chan.sound hc
    obtain ⟨rfl, _⟩ := reads_dims.sound hd
    obtain ⟨rfl, _⟩ := layers0.sound hl
    obtain ⟨rfl, hi0, _⟩ := dies1.sound hi
    obtain ⟨rfl, he0, _⟩ := elems1.sound he
    obtain ⟨rfl, _⟩ := reads_solver.sound hs
    split at h
    · next hq =>
      obtain rfl : q = [] := by simpa using hq
      injection h with h; subst h
      refine ⟨⟨hm0, hi0, he0⟩, ?_⟩
      rw [points_sound hp]; rfl
    · exact absurd h (by simp)
  · rintro ⟨ok, rfl⟩
    unfold parseStackFile StackD.toks
    have z1 : ∀ r, heads ["output"] ((if s.points = [] then [] else [kw "output", colon] ++ s.points.flatMap PointD.toks) ++ r) ∨
        (if s.points = [] then [] else [kw "output", colon] ++ s.points.flatMap PointD.toks) = [] := by
      intro r
      by_cases h : s.points = []
      · exact Or.inr (by rw [if_pos h])
      · exact Or.inl (by rw [if_neg h]; exact ⟨"output", by simp, _, rfl⟩)
    have hd : ∀ r, heads ["dimensions"] (s.dims.toks ++ r) := fun r => ⟨_, by simp, _, rfl⟩
    have hcd : ∀ r, heads ["microchannel", "pinfin", "dimensions"] (optToks ChanD.toks s.chan ++ (s.dims.toks ++ r)) := by
      intro r
      cases s.chan with
      | none => exact ⟨"dimensions", by simp, _, rfl⟩
      | some c => cases c <;> exact ⟨_, by simp, _, rfl⟩
    have hbc : ∀ r, heads ["bottom", "microchannel", "pinfin", "dimensions"]
        (optToks (SinkD.toks "bottom") s.bottom ++ (optToks ChanD.toks s.chan ++ (s.dims.toks ++ r))) := by
      intro r
      cases s.bottom with
      | none => obtain ⟨k, h, r', e⟩ := hcd r; exact ⟨k, by simp at h ⊢; tauto, r', e⟩
      | some c => exact ⟨"bottom", by simp, _, rfl⟩
    have htb : ∀ r, heads ["top", "bottom", "microchannel", "pinfin", "dimensions"]
        (optToks TopD.toks s.top ++ (optToks (SinkD.toks "bottom") s.bottom ++ (optToks ChanD.toks s.chan ++ (s.dims.toks ++ r)))) := by
      intro r
      cases s.top with
      | none => obtain ⟨k, h, r', e⟩ := hbc r; exact ⟨k, by simp at h ⊢; tauto, r', e⟩
      | some c => cases c <;> exact ⟨"top", by simp, _, rfl⟩
    have hdie : ∀ r, heads ["die"] (s.dies.flatMap DieD.toks ++ r) := by
      intro r
      cases h : s.dies with
      | nil => exact absurd h ok.dies
      | cons a l => exact ⟨"die", by simp, _, rfl⟩
    have hlay : ∀ r, heads ["layer", "die"] (s.layers.flatMap LayD.toks ++ (s.dies.flatMap DieD.toks ++ r)) := by
      intro r
      cases s.layers with
      | nil => obtain ⟨k, h, r', e⟩ := hdie r; exact ⟨k, by simp at h ⊢; tauto, r', e⟩
      | cons a l => exact ⟨"layer", by simp, _, rfl⟩
    refine Option.bind_eq_some_iff.mpr ⟨(_, _), mats1.complete ⟨ok.mats, fun _ _ => trivial⟩ ⟨not_of_heads (htb _) (by decide), trivial⟩, ?_⟩
    refine Option.bind_eq_some_iff.mpr ⟨(_, _), top0.complete (fun _ _ => trivial) ⟨not_of_heads (hbc _) (by decide), trivial⟩, ?_⟩
    refine Option.bind_eq_some_iff.mpr ⟨(_, _), bottom0.complete (fun _ _ => trivial) ⟨not_of_heads (hcd _) (by decide), trivial⟩, ?_⟩
    refine Option.bind_eq_some_iff.mpr ⟨(_, _), reads_chan.complete trivial ⟨not_of_heads (hd _) (by decide), not_of_heads (hd _) (by decide)⟩, ?_⟩
    refine Option.bind_eq_some_iff.mpr ⟨(_, _), reads_dims.complete trivial (not_of_heads (hlay _) (by decide)), ?_⟩
    refine Option.bind_eq_some_iff.mpr ⟨(_, _), layers0.complete (fun _ _ => trivial) ⟨not_of_heads (hdie _) (by decide), not_of_heads (hdie _) (by decide)⟩, ?_⟩
    refine Option.bind_eq_some_iff.mpr ⟨(_, _), dies1.complete ⟨ok.dies, fun _ _ => trivial⟩ ⟨rfl, rfl⟩, ?_⟩
    refine Option.bind_eq_some_iff.mpr ⟨_, lit_iff.mpr rfl, ?_⟩
    refine Option.bind_eq_some_iff.mpr ⟨(_, _), elems1.complete ⟨ok.elems, fun _ _ => trivial⟩ ⟨rfl, trivial⟩, ?_⟩
    refine Option.bind_eq_some_iff.mpr ⟨(_, _), reads_solver.complete trivial ?_, ?_⟩
    · by_cases h : s.points = []
      · rw [if_pos h]; rfl
      · rw [if_neg h]; rfl
    refine Option.bind_eq_some_iff.mpr ⟨(_, _), points_complete, ?_⟩
    rfl

/-! ### Floorplans and layouts -/

theorem pair_iff {k : String} {ts r : List Tok} {x : ℚ × ℚ} : pair k ts = some (x, r) ↔ ts = [kw k, .num x.1, comma, .num x.2, semi] ++ r := by
  unfold pair
  simp only [Option.bind_eq_some_iff, Option.map_eq_some_iff, Prod.exists, lit_iff, num_iff, field_iff]
  constructor
  · rintro ⟨_, rfl, _, _, rfl, _, _, rfl, e⟩
    injection e with e1 e2; subst e1; subst e2; rfl
  · rintro rfl
    exact ⟨_, rfl, _, _, rfl, _, _, rfl, rfl⟩

theorem reads_rect : Reads pRect rectToks Any Any := by
  constructor
  · intro ts a r h
    unfold pRect at h
    simp only [Option.bind_eq_some_iff, Option.map_eq_some_iff, Prod.exists, lit_iff, num_iff] at h
    obtain ⟨_, rfl, _, _, rfl, _, rfl, _, _, rfl, _, rfl, _, _, rfl, _, rfl, _, _, rfl, _, rfl, e⟩ := h
    injection e with e1 e2; subst e1; subst e2
    exact ⟨rfl, trivial⟩
  · intro a r _ _
    rfl

theorem rects1 : Reads (many1 (isKw "rectangle") pRect) (fun l => l.flatMap rectToks) (fun l => l ≠ [] ∧ ∀ a ∈ l, Any a)
    (fun r => Not (isKw "rectangle") r ∧ Any r) :=
  reads_many1 reads_rect (by intro a r; rfl) (fun _ _ => trivial)

theorem mat0 : Reads (opt (isKw "material") (fieldId [.kw "material"])) (optToks fun n => [kw "material", .ident n, semi]) (fun o => ∀ a ∈ o, Any a)
    (fun r => Not (isKw "material") r ∧ Any r) :=
  reads_opt ⟨fun h => ⟨fieldId_iff.mp h, trivial⟩, fun _ _ => fieldId_iff.mpr rfl⟩ (by intro a r; rfl)

theorem disc0 : Reads (opt (isKw "discretization") (pair "discretization")) (optToks fun p => [kw "discretization", .num p.1, comma, .num p.2, semi])
    (fun o => ∀ a ∈ o, Any a) (fun r => Not (isKw "discretization") r ∧ Any r) :=
  reads_opt ⟨fun h => ⟨pair_iff.mp h, trivial⟩, fun _ _ => pair_iff.mpr rfl⟩ (by intro a r; rfl)

theorem reads_area : Reads pArea AreaD.toks AreaD.Ok
    (fun r => Not (isKw "rectangle") r ∧ Not (isKw "material") r ∧ Not (isKw "discretization") r) := by
  constructor
  · intro ts a r h
    unfold pArea at h
    split at h
    · simp only [Option.bind_eq_some_iff, Option.map_eq_some_iff, Prod.exists, pair_iff] at h
      obtain ⟨_, _, _, rfl, _, _, _, rfl, m, _, hm, n, _, hn, e⟩ := h
      injection e with e1 e2; subst e1; subst e2
      obtain ⟨rfl, _⟩ := mat0.sound hm
      obtain ⟨rfl, _⟩ := disc0.sound hn
      exact ⟨by simp [AreaD.toks], trivial⟩
    · simp only [Option.map_eq_some_iff, Prod.exists] at h
      obtain ⟨l, _, h, e⟩ := h
      injection e with e1 e2; subst e1; subst e2
      exact ⟨(rects1.sound h).1, (rects1.sound h).2.1⟩
  · intro a r ok h
    cases a with
    | one x y l w m d =>
      unfold pArea AreaD.toks
      simp only [List.append_assoc, List.cons_append, List.nil_append]
      rw [if_pos (by simp)]
      refine Option.bind_eq_some_iff.mpr ⟨((x, y), _), pair_iff.mpr rfl, ?_⟩
      refine Option.bind_eq_some_iff.mpr ⟨((l, w), _), pair_iff.mpr rfl, ?_⟩
      refine Option.bind_eq_some_iff.mpr ⟨(_, _), mat0.complete (fun _ _ => trivial) ⟨?_, trivial⟩, ?_⟩
      · cases d with
        | none => exact h.2.1
        | some d => rfl
      exact Option.map_eq_some_iff.mpr ⟨(_, _), disc0.complete (fun _ _ => trivial) ⟨h.2.2, trivial⟩, rfl⟩
    | many rs =>
      unfold pArea AreaD.toks
      rw [if_neg, rects1.complete ⟨ok, fun _ _ => trivial⟩ ⟨h.1, trivial⟩]
      · rfl
      · cases rs with
        | nil => exact absurd rfl ok
        | cons a l => simp [rectToks]

theorem commas : Reads (fun ts => many (isSym ',') (fun ts => (lit [.sym ','] ts).bind num) ts.length ts) (fun l => l.flatMap fun q => [comma, .num q])
    (fun l => ∀ a ∈ l, Any a) (fun r => Not (isSym ',') r ∧ Any r) := by
  refine reads_many ⟨?_, ?_⟩ (by intro a r; rfl) (fun _ _ => trivial)
  · intro ts a r h
    simp only [Option.bind_eq_some_iff, lit_iff, num_iff] at h
    obtain ⟨_, rfl, rfl⟩ := h
    exact ⟨rfl, trivial⟩
  · intro a r _ _
    rfl

theorem reads_powers : Reads pPowers powersToks Any (Not (isKw "power")) := by
  constructor
  · intro ts a r h
    unfold pPowers at h
    refine ⟨?_, trivial⟩
    split at h
    · simp only [Option.bind_eq_some_iff, Option.map_eq_some_iff, Prod.exists, lit_iff, num_iff] at h
      obtain ⟨_, rfl, q, _, rfl, l, _, hl, _, rfl, e⟩ := h
      injection e with e1 e2; subst e1; subst e2
      obtain ⟨rfl, _⟩ := commas.sound hl
      simp [powersToks]
    · injection h with e; injection e with e1 e2; subst e1; subst e2; rfl
  · intro a r _ h
    cases a with
    | nil => unfold pPowers powersToks; rw [if_neg (by rw [List.nil_append, show next (isKw "power") r = false from h]; decide)]; rfl
    | cons p ps =>
      unfold pPowers powersToks
      simp only [List.append_assoc, List.cons_append, List.nil_append]
      rw [if_pos (by simp)]
      lt; nm
      refine Option.bind_eq_some_iff.mpr ⟨(_, _), commas.complete (fun _ _ => trivial) ⟨rfl, trivial⟩, ?_⟩
      exact Option.map_eq_some_iff.mpr ⟨_, lit_iff.mpr rfl, rfl⟩

/-- The text is at its end or continues with a name. -/
def More (r : List Tok) : Prop := r = [] ∨ ∃ n r', r = .ident n :: r'

theorem More.no {r : List Tok} (h : More r) {k : Tok → Bool} (hk : ∀ n, k (.ident n) = false) : Not k r := by
  rcases h with rfl | ⟨n, r', rfl⟩
  · rfl
  · exact hk n

theorem reads_flp : Reads pFlp FlpD.toks (fun f => f.area.Ok) More := by
  constructor
  · intro ts a r h
    unfold pFlp at h
    simp only [Option.bind_eq_some_iff, Option.map_eq_some_iff, Prod.exists, lit_iff, ident_iff] at h
    obtain ⟨_, _, rfl, _, rfl, a, _, ha, p, _, hp, e⟩ := h
    injection e with e1 e2; subst e1; subst e2
    obtain ⟨rfl, ok⟩ := reads_area.sound ha
    obtain ⟨rfl, _⟩ := reads_powers.sound hp
    exact ⟨by simp [FlpD.toks], ok⟩
  · intro a r ok h
    unfold pFlp FlpD.toks
    simp only [List.append_assoc, List.cons_append, List.nil_append]
    idt; lt
    have hn : ∀ k, k ≠ "power" → Not (isKw k) (powersToks a.powers ++ r) := by
      intro k hk
      cases a.powers with
      | nil => exact h.no fun _ => rfl
      | cons p ps => simp [powersToks, Ne.symm hk]
    refine Option.bind_eq_some_iff.mpr ⟨(_, _), reads_area.complete ok ⟨hn _ (by decide), hn _ (by decide), hn _ (by decide)⟩, ?_⟩
    exact Option.map_eq_some_iff.mpr ⟨(_, _), reads_powers.complete trivial (h.no fun _ => rfl), rfl⟩

theorem flps1 : Reads (many1 (fun _ => true) pFlp) (fun l => l.flatMap FlpD.toks) (fun l => l ≠ [] ∧ ∀ a ∈ l, a.area.Ok) (fun r => Not (fun _ => true) r ∧ More r) :=
  reads_many1 reads_flp (by intro a r; rfl) (fun _ _ => Or.inr ⟨_, _, rfl⟩)

/-- **C66** The same for floorplan files. -/
theorem C66_floorplan {ts : List Tok} {fs : List FlpD} : parseFlpFile ts = some fs ↔ (fs ≠ [] ∧ ∀ f ∈ fs, f.area.Ok) ∧ fs.flatMap FlpD.toks = ts := by
  constructor
  · intro h
    unfold parseFlpFile at h
    simp only [Option.bind_eq_some_iff, Prod.exists] at h
    obtain ⟨l, r, hl, h⟩ := h
    split at h
    · next hr =>
      obtain rfl : r = [] := by simpa using hr
      injection h with h; subst h
      have := flps1.sound hl
      exact ⟨this.2, by simpa using this.1.symm⟩
    · exact absurd h (by simp)
  · rintro ⟨ok, rfl⟩
    unfold parseFlpFile
    have := flps1.complete (r := []) ok ⟨rfl, Or.inl rfl⟩
    rw [List.append_nil] at this
    rw [this]; rfl

theorem reads_larea : Reads pLArea LAreaD.toks LAreaD.Ok (Not (isKw "rectangle")) := by
  constructor
  · intro ts a r h
    unfold pLArea at h
    split at h
    · simp only [Option.bind_eq_some_iff, Option.map_eq_some_iff, Prod.exists, pair_iff] at h
      obtain ⟨_, _, _, rfl, _, _, _, rfl, e⟩ := h
      injection e with e1 e2; subst e1; subst e2
      exact ⟨by simp [LAreaD.toks], trivial⟩
    · simp only [Option.map_eq_some_iff, Prod.exists] at h
      obtain ⟨l, _, h, e⟩ := h
      injection e with e1 e2; subst e1; subst e2
      exact ⟨(rects1.sound h).1, (rects1.sound h).2.1⟩
  · intro a r ok h
    cases a with
    | one x y l w => rfl
    | many rs =>
      unfold pLArea LAreaD.toks
      rw [if_neg, rects1.complete ⟨ok, fun _ _ => trivial⟩ ⟨h, trivial⟩]
      · rfl
      · cases rs with
        | nil => exact absurd rfl ok
        | cons a l => simp [rectToks]

theorem reads_lay : Reads pLay (fun a => [.ident a.1, colon] ++ a.2.toks) (fun a => a.2.Ok) More := by
  constructor
  · intro ts a r h
    unfold pLay at h
    simp only [Option.bind_eq_some_iff, Option.map_eq_some_iff, Prod.exists, lit_iff, ident_iff] at h
    obtain ⟨_, _, rfl, _, rfl, a, _, ha, e⟩ := h
    injection e with e1 e2; subst e1; subst e2
    obtain ⟨rfl, ok⟩ := reads_larea.sound ha
    exact ⟨by simp, ok⟩
  · intro a r ok h
    unfold pLay
    simp only [List.append_assoc, List.cons_append, List.nil_append]
    idt; lt
    exact Option.map_eq_some_iff.mpr ⟨(_, _), reads_larea.complete ok (h.no fun _ => rfl), rfl⟩

theorem lays1 : Reads (many1 (fun _ => true) pLay) (fun l => l.flatMap fun a => [.ident a.1, colon] ++ a.2.toks) (fun l => l ≠ [] ∧ ∀ a ∈ l, a.2.Ok)
    (fun r => Not (fun _ => true) r ∧ More r) :=
  reads_many1 reads_lay (by intro a r; rfl) (fun _ _ => Or.inr ⟨_, _, rfl⟩)

/-- **C66** The same for layout files. -/
theorem C66_layout {ts : List Tok} {l : LayoutD} : parseLayoutFile ts = some l ↔ (l.areas ≠ [] ∧ ∀ a ∈ l.areas, a.2.Ok) ∧ l.toks = ts := by
  constructor
  · intro h
    unfold parseLayoutFile at h
    simp only [Option.bind_eq_some_iff, Prod.exists] at h
    obtain ⟨m, _, hm, l, r, hl, h⟩ := h
    split at h
    · next hr =>
      obtain rfl : r = [] := by simpa using hr
      injection h with h; subst h
      obtain ⟨rfl, _⟩ := mats0.sound hm
      have := lays1.sound hl
      exact ⟨this.2, by rw [LayoutD.toks, this.1, List.append_nil]⟩
    · exact absurd h (by simp)
  · rintro ⟨ok, rfl⟩
    unfold parseLayoutFile LayoutD.toks
    have := lays1.complete (r := []) ok ⟨rfl, Or.inl rfl⟩
    rw [List.append_nil] at this
    refine Option.bind_eq_some_iff.mpr ⟨(_, _), mats0.complete (fun _ _ => trivial) ⟨?_, trivial⟩, ?_⟩
    · cases h : l.areas with
      | nil => exact absurd h ok.1
      | cons a t => rfl
    exact Option.bind_eq_some_iff.mpr ⟨(_, _), this, rfl⟩

end

/-- **C66** A text has at most one reading as a document. -/
theorem C66_unambiguous {s s' : StackD} (h : s.Ok) (h' : s'.Ok) (e : s.toks = s'.toks) : s = s' := by
  have a := C66_stack.mpr ⟨h, rfl⟩
  have b := C66_stack.mpr ⟨h', rfl⟩
  rw [e, b] at a
  exact (Option.some.inj a).symm

/-- **C66** With C65: every text of a document, however it is laid out, is read as that document. -/
theorem C66_text_partial {s : StackD} (h : s.Ok) {text : List Char} (ht : Written stackLex s.toks text) :
    parseStackFile (scan stackRules .initial text) = some s := by
  rw [C65_free_format_partial.1 ht]
  exact C66_stack.mpr ⟨h, rfl⟩

/-- The same for floorplans and layouts. -/
theorem C66_flp_text_partial {fs : List FlpD} (h : fs ≠ [] ∧ ∀ f ∈ fs, f.area.Ok) {text : List Char} (ht : Written flpLex (fs.flatMap FlpD.toks) text) :
    parseFlpFile (scan flpRules .initial text) = some fs := by
  rw [C65_free_format_partial.2.1 ht]
  exact C66_floorplan.mpr ⟨h, rfl⟩

theorem C66_layout_text_partial {l : LayoutD} (h : l.areas ≠ [] ∧ ∀ a ∈ l.areas, a.2.Ok) {text : List Char} (ht : Written layLex l.toks text) :
    parseLayoutFile (scan layRules .initial text) = some l := by
  rw [C65_free_format_partial.2.2 ht]
  exact C66_layout.mpr ⟨h, rfl⟩

/-! ### Examples -/

/-- A small stack file with every section. -/
def exampleDoc : StackD :=
  { mats := [⟨"SI", .iso (13 / 100000), 1 / 10⟩, ⟨"BEOL", .aniso 1 2 3, 2⟩], top := some (.conv ⟨1, 300⟩), bottom := none,
    chan := some (.rm4 100 50 50 none (some 25) "SI" 42 (.one 3) 4 300), dims := ⟨1000, 2000, 100, 100, some false⟩,
    layers := [⟨"PCB", 10, "BEOL", some "pcb.lay"⟩], dies := [⟨"CORE", [.own 5 "SI"], .own 2 "SI", [.ref "PCB"]⟩],
    elems := [.die "TOP" "CORE" "core.flp" none, .channel "CH", .layer "L" "PCB" (some (2, 3))],
    solver := ⟨some (1 / 50, 1 / 5), 300, none⟩, points := [.tcell "TOP" 1 2 "t.txt" .step, .tflp "TOP" "f.txt" .average .unsaid] }

example : exampleDoc.Ok := ⟨by decide, by decide, by decide⟩
example : parseStackFile exampleDoc.toks = some exampleDoc := C66_stack.mpr ⟨⟨by decide, by decide, by decide⟩, rfl⟩
/-- Sections in another order are refused: layers before the dimensions. -/
example : parseStackFile (exampleDoc.mats.flatMap MatD.toks ++ (exampleDoc.layers.flatMap LayD.toks ++ exampleDoc.dims.toks)) = none := by decide +kernel

end Verif.Gram
