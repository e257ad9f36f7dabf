import Verif.Props.GrammarFiles

/-! **C66** Every document with decimal numbers and legal names can be written: the grammar and the scanner together lose no document. -/

namespace Verif.Scan

/-- A token that can be written: a number must be decimal, a name must not be a keyword, a path must not contain a quote. -/
def Writable (L : Lexicon) : Tok → Prop
  | .sym c => c ∈ L.syms
  | .kw k => k ∈ L.kws
  | .num q => ∃ (a : Int) (k : Nat), q = a / 10 ^ k
  | .ident s => IsName s.toList ∧ s ∉ L.kws
  | .path s => L.paths = true ∧ '"' ∉ s.toList

/-- What a user chooses in a document must be writable: numbers are decimal, names are not keywords, paths do not contain quotes. -/
def FreeOk (L : Lexicon) : Tok → Prop
  | .num q => ∃ (a : Int) (k : Nat), q = a / 10 ^ k
  | .ident s => IsName s.toList ∧ s ∉ L.kws
  | .path s => '"' ∉ s.toList
  | _ => True

/-- What the grammar itself prescribes is in the lexicon. -/
def Known (L : Lexicon) : Tok → Prop
  | .sym c => c ∈ L.syms
  | .kw k => k ∈ L.kws
  | .path _ => L.paths = true
  | _ => True

theorem writable_of {L : Lexicon} {t : Tok} (h : FreeOk L t) (hk : Known L t) : Writable L t := by
  cases t with
  | sym c => exact hk
  | kw k => exact hk
  | num q => exact h
  | ident s => exact h
  | path s => exact ⟨hk, h⟩

theorem natOf_surj (n : Nat) : ∃ ds, ds ≠ [] ∧ natOf ds = n := by
  induction n using Nat.strong_induction_on with
  | _ n ih =>
    by_cases h : n < 10
    · exact ⟨[⟨n, h⟩], by simp, by simp [natOf]⟩
    · obtain ⟨ds, h1, h2⟩ := ih (n / 10) (by omega)
      refine ⟨ds ++ [⟨n % 10, by omega⟩], by simp, ?_⟩
      unfold natOf at h2 ⊢
      rw [List.foldl_append, h2]
      simp only [List.foldl_cons, List.foldl_nil]
      omega

theorem numeral_exists (a : Int) (k : Nat) : ∃ n : Numeral, n.Ok ∧ n.value = a / 10 ^ k := by
  obtain ⟨ds, h1, h2⟩ := natOf_surj a.natAbs
  obtain ⟨es, h3, h4⟩ := natOf_surj k
  rcases Int.natAbs_eq a with ha | ha
  · refine ⟨⟨.no, ds, none, some (false, .minus, es)⟩, ⟨h1, by simp, by simpa using h3⟩, ?_⟩
    simp only [Numeral.value, Sign.apply, fracVal, expVal, h2, h4]
    rw [zpow_neg, zpow_natCast, add_zero, div_eq_mul_inv]
    congr 1
    rw [ha]; simp
  · refine ⟨⟨.minus, ds, none, some (false, .minus, es)⟩, ⟨h1, by simp, by simpa using h3⟩, ?_⟩
    simp only [Numeral.value, Sign.apply, fracVal, expVal, h2, h4]
    rw [zpow_neg, zpow_natCast, add_zero, div_eq_mul_inv, ← neg_mul]
    congr 1
    rw [ha]; simp

theorem spells_exists {L : Lexicon} {t : Tok} (h : Writable L t) : ∃ w, Spells L t w := by
  cases t with
  | sym c => exact ⟨_, .sym h⟩
  | kw k => exact ⟨_, .kw h⟩
  | num q =>
    obtain ⟨a, k, rfl⟩ := h
    obtain ⟨n, h1, h2⟩ := numeral_exists a k
    rw [← h2]
    exact ⟨_, .num h1⟩
  | ident s => exact ⟨_, .ident h.1 h.2⟩
  | path s => exact ⟨_, .path h.1 h.2⟩

theorem written_exists {L : Lexicon} : ∀ {ts : List Tok}, (∀ t ∈ ts, Writable L t) → ∃ s, Written L ts s
  | [], _ => ⟨[], .nil⟩
  | t :: ts, h => by
    obtain ⟨s, hs⟩ := written_exists fun x hx => h x (List.mem_cons_of_mem _ hx)
    obtain ⟨w, hw⟩ := spells_exists (h t (by simp))
    refine ⟨w ++ ([' '] ++ s), .tok hw ?_ (.gap (.space (by decide)) hs)⟩
    have e : ∀ c ∈ ([' '] ++ s).head?, wordy c = false := by
      intro c hc
      simp only [List.singleton_append, List.head?_cons, Option.mem_def, Option.some.injEq] at hc
      rw [← hc]; decide
    cases t with
    | sym => trivial
    | path => trivial
    | kw => exact e
    | num => exact e
    | ident => exact e

/-- A check for `Writable`, for examples. -/
def check (L : Lexicon) : Tok → Bool
  | .sym c => decide (c ∈ L.syms)
  | .kw k => decide (k ∈ L.kws)
  | .num q => decide ((q * 10 ^ 9).den = 1)
  | .ident s => (match s.toList with | c :: u => c.isAlpha && u.all fun x => x == '_' || x.isAlphanum | [] => false) && decide (s ∉ L.kws)
  | .path s => L.paths && decide ('"' ∉ s.toList)

theorem check_sound {L : Lexicon} {t : Tok} (h : check L t = true) : Writable L t := by
  cases t with
  | sym c => simpa [check, Writable] using h
  | kw k => simpa [check, Writable] using h
  | num q =>
    refine ⟨(q * 10 ^ 9).num, 9, ?_⟩
    have h : (q * 10 ^ 9).den = 1 := by simpa [check] using h
    have := Rat.coe_int_num_of_den_eq_one h
    rw [this]
    field_simp
  | ident s =>
    simp only [check, Bool.and_eq_true, decide_eq_true_eq] at h
    refine ⟨?_, h.2⟩
    have h := h.1
    cases hs : s.toList with
    | nil => rw [hs] at h; cases h
    | cons c u =>
      rw [hs] at h
      simp only [Bool.and_eq_true, List.all_eq_true, Bool.or_eq_true, beq_iff_eq] at h
      exact ⟨c, u, rfl, h.1, h.2⟩
  | path s => simpa [check, Writable] using h

/-- The same for `FreeOk`. -/
theorem check_free {L : Lexicon} {t : Tok} (h : check L t = true) : FreeOk L t := by
  have h := check_sound h
  cases t with
  | sym c => trivial
  | kw k => trivial
  | num q => exact h
  | ident s => exact h
  | path s => exact h.2

end Verif.Scan

namespace Verif.Gram
open Verif.Scan

/-! ### The keywords and the punctuation of the grammar are those of the scanner -/

macro "known" : tactic => `(tactic| simp [Known, stackLex, flpLex, layLex, kw, semi, colon, comma])

theorem known_append {L : Lexicon} {a b : List Tok} (ha : ∀ t ∈ a, Known L t) (hb : ∀ t ∈ b, Known L t) : ∀ t ∈ a ++ b, Known L t := by
  intro t ht
  rcases List.mem_append.mp ht with ht | ht
  · exact ha t ht
  · exact hb t ht
theorem known_flatMap {α : Type} {L : Lexicon} {f : α → List Tok} {l : List α} (h : ∀ a ∈ l, ∀ t ∈ f a, Known L t) : ∀ t ∈ l.flatMap f, Known L t := by
  intro t ht
  obtain ⟨a, ha, ht⟩ := List.mem_flatMap.mp ht
  exact h a ha t ht
theorem known_opt {α : Type} {L : Lexicon} {f : α → List Tok} {o : Option α} (h : ∀ a, ∀ t ∈ f a, Known L t) : ∀ t ∈ optToks f o, Known L t := by
  cases o with
  | none => simp [optToks]
  | some a => exact h a

theorem known_mat {L : Lexicon} (hL : L = stackLex ∨ L = layLex) (m : MatD) : ∀ t ∈ m.toks, Known L t := by
  obtain ⟨i, c, v⟩ := m
  rcases hL with rfl | rfl <;> cases c <;> simp only [MatD.toks, CondD.toks] <;> known
theorem known_sink {side : String} (hs : side = "top" ∨ side = "bottom") (x : SinkD) : ∀ t ∈ x.toks side, Known stackLex t := by
  rcases hs with rfl | rfl <;> simp only [SinkD.toks] <;> known
theorem known_plug (x : PlugD) : ∀ t ∈ x.toks, Known stackLex t := by
  obtain ⟨a, b, c, d, e, o⟩ := x
  cases o <;> simp only [PlugD.toks] <;> known
theorem known_top (x : TopD) : ∀ t ∈ x.toks, Known stackLex t := by
  cases x with
  | conv s => exact known_sink (.inl rfl) s
  | plug p => exact known_plug p
theorem known_htc4 (x : Htc4) : ∀ t ∈ x.toks, Known stackLex t := by
  cases x <;> simp only [Htc4.toks] <;> known
theorem known_htc2 (x : Htc2) : ∀ t ∈ x.toks, Known stackLex t := by
  cases x <;> simp only [Htc2.toks] <;> known
theorem known_wall {k : String} (hk : k = "first" ∨ k = "last") (x : Option ℚ) : ∀ t ∈ wallToks k x, Known stackLex t := by
  rcases hk with rfl | rfl <;> cases x <;> simp only [wallToks] <;> known
theorem known_chan (x : ChanD) : ∀ t ∈ x.toks, Known stackLex t := by
  cases x with
  | rm4 h c w f l m fl t v i =>
    exact known_append (known_append (known_append (known_append (known_append (by known) (known_wall (.inl rfl) f)) (known_wall (.inr rfl) l)) (by known))
      (known_htc4 t)) (by known)
  | rm2 h c w m fl t v i => exact known_append (known_append (by known) (known_htc2 t)) (by known)
  | pin h d p s m u v i => cases s <;> simp only [ChanD.toks] <;> known
theorem known_dims (x : DimD) : ∀ t ∈ x.toks, Known stackLex t := by
  obtain ⟨a, b, c, d, o⟩ := x
  rcases o with _ | _ | _ <;> simp only [DimD.toks] <;> known
theorem known_layer (x : LayD) : ∀ t ∈ x.toks, Known stackLex t := by
  obtain ⟨a, b, c, o⟩ := x
  cases o <;> simp only [LayD.toks] <;> known
theorem known_dlay {k : String} (hk : k = "layer" ∨ k = "source") (x : DLayD) : ∀ t ∈ x.toks k, Known stackLex t := by
  rcases hk with rfl | rfl <;> cases x <;> simp only [DLayD.toks] <;> known
theorem known_die (x : DieD) : ∀ t ∈ x.toks, Known stackLex t :=
  known_append (known_append (known_append (by known) (known_flatMap fun a _ => known_dlay (.inl rfl) a)) (known_dlay (.inr rfl) _))
    (known_flatMap fun a _ => known_dlay (.inl rfl) a)
theorem known_el (x : ElD) : ∀ t ∈ x.toks, Known stackLex t := by
  cases x with
  | layer n r d => rcases d with _ | ⟨d, e⟩ <;> simp only [ElD.toks, discrToks] <;> known
  | channel n => simp only [ElD.toks]; known
  | die n r p d => rcases d with _ | ⟨d, e⟩ <;> simp only [ElD.toks, discrToks] <;> known
theorem known_solver (x : SolverD) : ∀ t ∈ x.toks, Known stackLex t := by
  obtain ⟨k, i, c⟩ := x
  rcases k with _ | ⟨k, l⟩ <;> cases c <;> simp only [SolverD.toks] <;> known
theorem known_when (x : WhenD) : ∀ t ∈ x.toks, Known stackLex t := by
  cases x <;> simp only [WhenD.toks] <;> known
theorem known_quant (x : QuantD) : Known stackLex x.tok := by
  cases x <;> simp only [QuantD.tok] <;> known
theorem known_point (x : PointD) : ∀ t ∈ x.toks, Known stackLex t := by
  cases x with
  | tcell e x y f w => exact known_append (known_append (by known) (known_when w)) (by known)
  | tflp e f q w => exact known_append (known_append (by have := known_quant q; simp only [List.forall_mem_cons, this, true_and]; known) (known_when w)) (by known)
  | tflpel e s f q w => exact known_append (known_append (by have := known_quant q; simp only [List.forall_mem_cons, this, true_and]; known) (known_when w)) (by known)
  | tmap e f w => exact known_append (known_append (by known) (known_when w)) (by known)
  | t3d f w => exact known_append (known_append (by known) (known_when w)) (by known)
  | pmap e f w => exact known_append (known_append (by known) (known_when w)) (by known)
  | tcoolant e f q w => exact known_append (known_append (by have := known_quant q; simp only [List.forall_mem_cons, this, true_and]; known) (known_when w)) (by known)

/-- Every keyword and every sign that the grammar of the stack file prescribes is one that its scanner knows. -/
theorem known_stack (s : StackD) : ∀ t ∈ s.toks, Known stackLex t := by
  unfold StackD.toks
  refine known_append (known_flatMap fun a _ => known_mat (.inl rfl) a) (known_append (known_opt known_top) (known_append (known_opt (known_sink (.inr rfl)))
    (known_append (known_opt known_chan) (known_append (known_dims _) (known_append (known_flatMap fun a _ => known_layer a)
    (known_append (known_flatMap fun a _ => known_die a) (known_append (by known) (known_append (known_flatMap fun a _ => known_el a)
    (known_append (known_solver _) ?_)))))))))
  split_ifs
  · simp
  · exact known_append (by known) (known_flatMap fun a _ => known_point a)

theorem known_rect {L : Lexicon} (hL : L = flpLex ∨ L = layLex) (r : TG.Rect ℚ) : ∀ t ∈ rectToks r, Known L t := by
  rcases hL with rfl | rfl <;> simp only [rectToks] <;> known
theorem known_powers (p : List ℚ) : ∀ t ∈ powersToks p, Known flpLex t := by
  cases p with
  | nil => simp [powersToks]
  | cons q ps => exact known_append (known_append (by known) (known_flatMap fun a _ => by known)) (by known)
/-- The same for floorplans and layouts. -/
theorem known_flp (f : FlpD) : ∀ t ∈ f.toks, Known flpLex t := by
  refine known_append (known_append (by known) ?_) (known_powers _)
  cases f.area with
  | many rs => exact known_flatMap fun a _ => known_rect (.inl rfl) a
  | one x y l w m d => exact known_append (known_append (by known) (known_opt fun a => by known)) (known_opt fun a => by known)
theorem known_layout (l : LayoutD) : ∀ t ∈ l.toks, Known layLex t := by
  refine known_append (known_flatMap fun a _ => known_mat (.inr rfl) a) (known_flatMap fun a _ => known_append (by known) ?_)
  cases a.2 with
  | many rs => exact known_flatMap fun a _ => known_rect (.inr rfl) a
  | one x y l w => simp only [LAreaD.toks]; known

/-- **C66** Every document that the grammar allows, with decimal numbers and legal names, can be written in a file and is read back from it. -/
theorem C66_every_document {s : StackD} (h : s.Ok) (hw : ∀ t ∈ s.toks, FreeOk stackLex t) :
    ∃ text, parseStackFile (scan stackRules .initial text) = some s := by
  obtain ⟨text, ht⟩ := written_exists fun t h => writable_of (hw t h) (known_stack s t h)
  exact ⟨text, C66_text_partial h ht⟩

/-- The same for floorplans and layouts. -/
theorem C66_every_floorplan {fs : List FlpD} (h : fs ≠ [] ∧ ∀ f ∈ fs, f.area.Ok) (hw : ∀ t ∈ fs.flatMap FlpD.toks, FreeOk flpLex t) :
    ∃ text, parseFlpFile (scan flpRules .initial text) = some fs := by
  obtain ⟨text, ht⟩ := written_exists fun t h => writable_of (hw t h) (known_flatMap (fun f _ => known_flp f) t h)
  exact ⟨text, C66_flp_text_partial h ht⟩
theorem C66_every_layout {l : LayoutD} (h : l.areas ≠ [] ∧ ∀ a ∈ l.areas, a.2.Ok) (hw : ∀ t ∈ l.toks, FreeOk layLex t) :
    ∃ text, parseLayoutFile (scan layRules .initial text) = some l := by
  obtain ⟨text, ht⟩ := written_exists fun t h => writable_of (hw t h) (known_layout l t h)
  exact ⟨text, C66_layout_text_partial h ht⟩

theorem exampleDoc_writable : ∀ t ∈ exampleDoc.toks, FreeOk stackLex t := by
  intro t ht
  have : exampleDoc.toks.all (check stackLex) = true := by decide +kernel
  exact check_free (List.all_eq_true.mp this t ht)
example : ∃ text, parseStackFile (scan stackRules .initial text) = some exampleDoc :=
  C66_every_document ⟨by decide, by decide, by decide⟩ exampleDoc_writable

end Verif.Gram
