import Verif.Model.Scanner
import Mathlib.Tactic.Ring
import Mathlib.Data.List.Basic

set_option linter.unusedSimpArgs false
set_option linter.unusedVariables false

/-! Lemmas about regular expressions and the scanning engine. -/

namespace Verif.Scan

/-- The strings denoted by a regular expression (flex manual, "Patterns"). -/
inductive Re.Lang : Re → List Char → Prop
  | eps : Lang .eps []
  | set {p c} : p c = true → Lang (.set p) [c]
  | altL {a b s} : Lang a s → Lang (.alt a b) s
  | altR {a b s} : Lang b s → Lang (.alt a b) s
  | seq {a b s t} : Lang a s → Lang b t → Lang (.seq a b) (s ++ t)
  | nil {a} : Lang (.star a) []
  | cons {a s t} : Lang a s → Lang (.star a) t → Lang (.star a) (s ++ t)

open Re

theorem nullable_iff (r : Re) : r.nullable = true ↔ Lang r [] := by
  induction r with
  | eps => simp [nullable, Lang.eps]
  | set p => simp only [nullable, Bool.false_eq_true, false_iff]; intro h; cases h
  | alt a b iha ihb =>
    simp only [nullable, Bool.or_eq_true, iha, ihb]
    constructor
    · rintro (h | h)
      · exact .altL h
      · exact .altR h
    · intro h; cases h with
      | altL h => exact Or.inl h
      | altR h => exact Or.inr h
  | seq a b iha ihb =>
    simp only [nullable, Bool.and_eq_true, iha, ihb]
    constructor
    · rintro ⟨h, h'⟩; exact Lang.seq h h'
    · intro h
      generalize hs : ([] : List Char) = s at h
      cases h with
      | seq h h' =>
        obtain ⟨h1, h2⟩ := List.append_eq_nil_iff.1 hs.symm
        subst h1; subst h2; exact ⟨h, h'⟩
  | star a => simp [nullable, Lang.nil]

theorem not_false_set {s : List Char} : ¬ Lang (.set fun _ => false) s := by intro h; cases h with | set h => simp at h

theorem seq_inv {a b : Re} {s : List Char} (h : Lang (.seq a b) s) : ∃ u v, s = u ++ v ∧ Lang a u ∧ Lang b v := by
  cases h with | seq h1 h2 => exact ⟨_, _, rfl, h1, h2⟩

theorem star_cons {a : Re} {c : Char} {s : List Char} (h : Lang (.star a) (c :: s)) : ∃ u v, s = u ++ v ∧ Lang a (c :: u) ∧ Lang (.star a) v := by
  have key : ∀ r t, Lang r t → ∀ a c s, r = .star a → t = c :: s → ∃ u v, s = u ++ v ∧ Lang a (c :: u) ∧ Lang (.star a) v := by
    intro r t h
    induction h with
    | @cons a' x y h1 h2 _ ih =>
      intro a c s hr ht
      cases hr
      cases x with
      | nil => exact ih a' c s rfl (by simpa using ht)
      | cons d x =>
        simp only [List.cons_append, List.cons.injEq] at ht
        obtain ⟨rfl, rfl⟩ := ht
        exact ⟨x, y, rfl, h1, h2⟩
    | nil => intro a c s _ ht; simp at ht
    | eps | set | altL | altR | seq => intro a c s hr; simp at hr
  exact key _ _ h _ _ _ rfl rfl

theorem deriv_iff (c : Char) (r : Re) : ∀ s, Lang (r.deriv c) s ↔ Lang r (c :: s) := by
  induction r with
  | eps => intro s; simp only [deriv]; exact ⟨fun h => absurd h not_false_set, fun h => by cases h⟩
  | set p =>
    intro s
    simp only [deriv]
    by_cases hp : p c = true
    · rw [if_pos hp]
      constructor
      · intro h; cases h; exact .set hp
      · intro h; cases h; exact .eps
    · rw [if_neg hp]
      exact ⟨fun h => absurd h not_false_set, fun h => by cases h with | set h => exact absurd h hp⟩
  | alt a b iha ihb =>
    intro s
    simp only [deriv]
    constructor
    · intro h; cases h with
      | altL h => exact .altL ((iha s).1 h)
      | altR h => exact .altR ((ihb s).1 h)
    · intro h; cases h with
      | altL h => exact .altL ((iha s).2 h)
      | altR h => exact .altR ((ihb s).2 h)
  | seq a b iha ihb =>
    intro s
    have key : Lang (.seq a b) (c :: s) ↔ Lang (.seq (a.deriv c) b) s ∨ (a.nullable = true ∧ Lang (b.deriv c) s) := by
      constructor
      · intro h
        obtain ⟨u, v, e, h1, h2⟩ := seq_inv h
        cases u with
        | nil =>
          simp only [List.nil_append] at e
          subst e
          exact Or.inr ⟨(nullable_iff a).2 h1, (ihb s).2 h2⟩
        | cons d u =>
          simp only [List.cons_append, List.cons.injEq] at e
          obtain ⟨rfl, rfl⟩ := e
          exact Or.inl (.seq ((iha u).2 h1) h2)
      · rintro (h | ⟨hn, h⟩)
        · obtain ⟨u, v, rfl, h1, h2⟩ := seq_inv h
          exact Lang.seq ((iha u).1 h1) h2
        · exact Lang.seq (s := []) ((nullable_iff a).1 hn) ((ihb s).1 h)
    rw [key]
    simp only [deriv]
    by_cases hn : a.nullable = true
    · rw [if_pos hn]
      constructor
      · intro h; cases h with
        | altL h => exact Or.inl h
        | altR h => exact Or.inr ⟨hn, h⟩
      · rintro (h | ⟨_, h⟩)
        · exact .altL h
        · exact .altR h
    · rw [if_neg hn]
      exact ⟨fun h => Or.inl h, fun h => h.resolve_right fun h => hn h.1⟩
  | star a iha =>
    intro s
    simp only [deriv]
    constructor
    · intro h
      obtain ⟨u, v, rfl, h1, h2⟩ := seq_inv h
      exact Lang.cons ((iha u).1 h1) h2
    · intro h
      obtain ⟨u, v, rfl, h1, h2⟩ := star_cons h
      exact .seq ((iha u).2 h1) h2

/-- The matcher decides the language of the expression. -/
theorem test_iff (s : List Char) : ∀ r : Re, r.test s = true ↔ Lang r s := by
  induction s with
  | nil => intro r; simp only [test]; exact nullable_iff r
  | cons c s ih => intro r; simp only [test]; rw [ih, deriv_iff]

theorem test_false {r : Re} {s : List Char} : r.test s = false ↔ ¬ Lang r s := by
  rw [← test_iff, Bool.not_eq_true]

/-! ### Languages of the expressions used -/

theorem lang_set {p : Char → Bool} {s : List Char} : Lang (.set p) s ↔ ∃ c, s = [c] ∧ p c = true := by
  constructor
  · intro h; cases h with | set h => exact ⟨_, rfl, h⟩
  · rintro ⟨c, rfl, h⟩; exact .set h

theorem lang_chr {c : Char} {s : List Char} : Lang (.chr c) s ↔ s = [c] := by
  unfold chr; rw [lang_set]; simp

theorem lang_seq {a b : Re} {s : List Char} : Lang (.seq a b) s ↔ ∃ u v, s = u ++ v ∧ Lang a u ∧ Lang b v :=
  ⟨seq_inv, by rintro ⟨u, v, rfl, h1, h2⟩; exact Lang.seq h1 h2⟩

theorem lang_opt {a : Re} {s : List Char} : Lang (.opt a) s ↔ s = [] ∨ Lang a s := by
  unfold opt
  constructor
  · intro h; cases h with
    | altL h => exact Or.inr h
    | altR h => cases h; exact Or.inl rfl
  · rintro (rfl | h)
    · exact .altR .eps
    · exact .altL h

theorem lang_lit {w s : List Char} : Lang (.lit w) s ↔ s = w := by
  induction w generalizing s with
  | nil => simp only [lit]; exact ⟨fun h => by cases h; rfl, by rintro rfl; exact .eps⟩
  | cons c w ih =>
    simp only [lit, lang_seq]
    constructor
    · rintro ⟨u, v, rfl, h1, h2⟩; rw [lang_chr.1 h1, ih.1 h2]; rfl
    · rintro rfl; exact ⟨[c], w, rfl, lang_chr.2 rfl, ih.2 rfl⟩

theorem lang_starSet {p : Char → Bool} {s : List Char} : Lang (.star (.set p)) s ↔ ∀ c ∈ s, p c = true := by
  induction s with
  | nil => simp [Lang.nil]
  | cons c s ih =>
    constructor
    · intro h
      obtain ⟨u, v, rfl, h1, h2⟩ := star_cons h
      obtain ⟨d, e, hd⟩ := lang_set.1 h1
      simp only [List.cons.injEq] at e
      obtain ⟨rfl, rfl⟩ := e
      intro x hx
      rcases List.mem_cons.1 hx with rfl | hx
      · exact hd
      · exact ih.1 h2 x (by simpa using hx)
    · intro h
      exact Lang.cons (s := [c]) (.set (h c (by simp))) (ih.2 fun x hx => h x (by simp [hx]))

theorem lang_plusSet {p : Char → Bool} {s : List Char} : Lang (.plus (.set p)) s ↔ s ≠ [] ∧ ∀ c ∈ s, p c = true := by
  unfold plus
  rw [lang_seq]
  constructor
  · rintro ⟨u, v, rfl, h1, h2⟩
    obtain ⟨c, rfl, hc⟩ := lang_set.1 h1
    refine ⟨by simp, ?_⟩
    intro x hx
    simp only [List.cons_append, List.nil_append, List.mem_cons] at hx
    rcases hx with rfl | hx
    · exact hc
    · exact lang_starSet.1 h2 x hx
  · rintro ⟨hn, h⟩
    cases s with
    | nil => exact absurd rfl hn
    | cons c s => exact ⟨[c], s, rfl, .set (h c (by simp)), lang_starSet.2 fun x hx => h x (by simp [hx])⟩

theorem star_mono {a b : Re} (h : ∀ s, Lang a s → Lang b s) : ∀ {s}, Lang (.star a) s → Lang (.star b) s := by
  intro s hs
  generalize hr : Re.star a = r at hs
  induction hs with
  | cons h1 h2 _ ih => cases hr; exact Lang.cons (h _ h1) (ih rfl)
  | nil => exact .nil
  | eps | set | altL | altR | seq => simp at hr

theorem lang_ident {s : List Char} : Lang reIdent s ↔ ∃ c u, s = c :: u ∧ isAlpha c = true ∧ ∀ x ∈ u, x = '_' ∨ isAlnum x = true := by
  have key : ∀ u, Lang (.star (.alt (.chr '_') (.set isAlnum))) u ↔ ∀ x ∈ u, x = '_' ∨ isAlnum x = true := by
    intro u
    have e : Lang (.star (.alt (.chr '_') (.set isAlnum))) u ↔ Lang (.star (.set fun x => x == '_' || isAlnum x)) u := by
      constructor
      · apply star_mono
        intro s hs
        cases hs with
        | altL h => rw [lang_chr.1 h]; exact .set (by simp)
        | altR h => obtain ⟨c, rfl, hc⟩ := lang_set.1 h; exact .set (by simp [hc])
      · apply star_mono
        intro s hs
        obtain ⟨c, rfl, hc⟩ := lang_set.1 hs
        simp only [Bool.or_eq_true, beq_iff_eq] at hc
        rcases hc with rfl | hc
        · exact .altL (lang_chr.2 rfl)
        · exact .altR (.set hc)
    rw [e, lang_starSet]; simp
  unfold reIdent
  rw [lang_seq]
  constructor
  · rintro ⟨u, v, rfl, h1, h2⟩
    obtain ⟨c, rfl, hc⟩ := lang_set.1 h1
    exact ⟨c, v, rfl, hc, (key v).1 h2⟩
  · rintro ⟨c, u, rfl, hc, h⟩
    exact ⟨[c], u, rfl, .set hc, (key u).2 h⟩

theorem lang_path {s : List Char} : Lang rePath s ↔ ∃ u, s = '"' :: (u ++ ['"']) ∧ '"' ∉ u := by
  unfold rePath
  rw [lang_seq]
  constructor
  · rintro ⟨u, v, rfl, h1, h2⟩
    obtain ⟨x, y, rfl, h3, h4⟩ := lang_seq.1 h2
    rw [lang_chr.1 h1, lang_chr.1 h4]
    refine ⟨x, rfl, fun hm => ?_⟩
    have := lang_starSet.1 h3 _ hm
    simp at this
  · rintro ⟨u, rfl, h⟩
    refine ⟨['"'], u ++ ['"'], rfl, lang_chr.2 rfl, lang_seq.2 ⟨u, ['"'], rfl, lang_starSet.2 ?_, lang_chr.2 rfl⟩⟩
    intro c hc
    simp only [bne_iff_ne, ne_eq]
    rintro rfl; exact h hc

/-- The pattern of signed integers. -/
theorem lang_sint {s : List Char} : Lang reSInt s ↔ ∃ sg ds, s = sg ++ ds ∧ (sg = [] ∨ sg = ['+'] ∨ sg = ['-']) ∧ ds ≠ [] ∧ ∀ c ∈ ds, isDigit c = true := by
  unfold reSInt reUInt
  rw [lang_seq]
  constructor
  · rintro ⟨u, v, rfl, h1, h2⟩
    refine ⟨u, v, rfl, ?_, lang_plusSet.1 h2⟩
    rcases lang_opt.1 h1 with rfl | h
    · exact Or.inl rfl
    · obtain ⟨c, rfl, hc⟩ := lang_set.1 h
      simp only [Bool.or_eq_true, beq_iff_eq] at hc
      rcases hc with rfl | rfl <;> simp
  · rintro ⟨sg, ds, rfl, h1, h2⟩
    refine ⟨sg, ds, rfl, lang_opt.2 ?_, lang_plusSet.2 h2⟩
    rcases h1 with rfl | rfl | rfl
    · exact Or.inl rfl
    · exact Or.inr (.set (by simp))
    · exact Or.inr (.set (by simp))

/-- The pattern of numbers. -/
theorem lang_double {s : List Char} : Lang reDouble s ↔ ∃ a b c, s = a ++ (b ++ c) ∧ Lang reSInt a ∧
    (b = [] ∨ ∃ f, b = '.' :: f ∧ f ≠ [] ∧ ∀ x ∈ f, isDigit x = true) ∧
    (c = [] ∨ ∃ e x, c = e :: x ∧ (e = 'e' ∨ e = 'E') ∧ Lang reSInt x) := by
  have hfrac : ∀ b, Lang (.opt (.seq (.chr '.') reUInt)) b ↔ (b = [] ∨ ∃ f, b = '.' :: f ∧ f ≠ [] ∧ ∀ x ∈ f, isDigit x = true) := by
    intro b
    rw [lang_opt, lang_seq]
    constructor
    · rintro (rfl | ⟨u, v, rfl, h1, h2⟩)
      · exact Or.inl rfl
      · rw [lang_chr.1 h1]; exact Or.inr ⟨v, rfl, lang_plusSet.1 h2⟩
    · rintro (rfl | ⟨f, rfl, h⟩)
      · exact Or.inl rfl
      · exact Or.inr ⟨['.'], f, rfl, lang_chr.2 rfl, lang_plusSet.2 h⟩
  have hexp : ∀ c, Lang (.opt reExp) c ↔ (c = [] ∨ ∃ e x, c = e :: x ∧ (e = 'e' ∨ e = 'E') ∧ Lang reSInt x) := by
    intro c
    unfold reExp
    rw [lang_opt, lang_seq]
    constructor
    · rintro (rfl | ⟨u, v, rfl, h1, h2⟩)
      · exact Or.inl rfl
      · obtain ⟨d, rfl, hd⟩ := lang_set.1 h1
        exact Or.inr ⟨d, v, rfl, by simpa using hd, h2⟩
    · rintro (rfl | ⟨e, x, rfl, he, h⟩)
      · exact Or.inl rfl
      · exact Or.inr ⟨[e], x, rfl, .set (by simpa using he), h⟩
  unfold reDouble
  rw [lang_seq]
  constructor
  · rintro ⟨u, v, rfl, h1, h2⟩
    rcases lang_opt.1 h2 with rfl | h
    · exact ⟨u, [], [], by simp, h1, Or.inl rfl, Or.inl rfl⟩
    · obtain ⟨b, c, rfl, hb, hc⟩ := lang_seq.1 h
      exact ⟨u, b, c, rfl, h1, (hfrac b).1 hb, (hexp c).1 hc⟩
  · rintro ⟨a, b, c, rfl, ha, hb, hc⟩
    exact ⟨a, b ++ c, rfl, ha, lang_opt.2 (Or.inr (lang_seq.2 ⟨b, c, rfl, (hfrac b).2 hb, (hexp c).2 hc⟩))⟩

/-! ### The engine -/

theorem longest_eq {rules : List Rule} {r : Rule} {w t : List Char} (hw : w ≠ []) (hm : rules.find? (fun r => r.re.test w) = some r)
    (hl : ∀ u v, t = u ++ v → u ≠ [] → ∀ r ∈ rules, r.re.test (w ++ u) = false) :
    longest rules (w ++ t) (w ++ t).length = some (w.length - 1, r) := by
  have hlen : 0 < w.length := List.length_pos_iff.2 hw
  have key : ∀ k, k ≤ t.length → longest rules (w ++ t) (w.length + k) = some (w.length - 1, r) := by
    intro k
    induction k with
    | zero =>
      intro _
      obtain ⟨n, hn⟩ : ∃ n, w.length = n + 1 := ⟨w.length - 1, by omega⟩
      have e : (w ++ t).take (n + 1) = w := by rw [← hn]; simp
      rw [Nat.add_zero, hn]
      simp only [longest, e, hm, Nat.add_sub_cancel]
    | succ k ih =>
      intro hk
      have e : (w ++ t).take (w.length + k + 1) = w ++ t.take (k + 1) := by
        rw [Nat.add_assoc, List.take_append, List.take_of_length_le (by omega), Nat.add_sub_cancel_left]
      have hne : t.take (k + 1) ≠ [] := by
        intro h
        have := congrArg List.length h
        rw [List.length_take, List.length_nil] at this
        omega
      have hnone : rules.find? (fun r => r.re.test (w ++ t.take (k + 1))) = none := by
        rw [List.find?_eq_none]
        intro x hx
        rw [hl (t.take (k + 1)) (t.drop (k + 1)) (List.take_append_drop _ _).symm hne x hx]
        simp
      rw [← Nat.add_assoc]
      simp only [longest, e, hnone]
      exact ih (by omega)
  rw [List.length_append]
  exact key _ le_rfl

/-- One step of the scanner. -/
theorem scan_step {rules : State → List Rule} {st : State} {r : Rule} {w t : List Char} (hw : w ≠ [])
    (hm : (rules st).find? (fun r => r.re.test w) = some r)
    (hl : ∀ u v, t = u ++ v → u ≠ [] → ∀ r ∈ rules st, r.re.test (w ++ u) = false) :
    scan rules st (w ++ t) = match r.act with
      | .skip => scan rules st t
      | .tok f => f w :: scan rules st t
      | .goto st' => scan rules st' t := by
  have h := longest_eq hw hm hl
  cases w with
  | nil => exact absurd rfl hw
  | cons c w =>
    rw [List.cons_append] at h ⊢
    rw [scan]
    simp only [List.length_cons] at h
    rw [h]
    have e1 : (w ++ t).drop w.length = t := by simp
    have e2 : (c :: (w ++ t)).take (w.length + 1) = c :: w := by simp
    simp only [Nat.add_sub_cancel, List.length_cons, e1, e2]
    cases r.act <;> rfl

theorem longest_none {rules : List Rule} {s : List Char} : ∀ k, (∀ n < k, ∀ r ∈ rules, r.re.test (s.take (n + 1)) = false) → longest rules s k = none := by
  intro k
  induction k with
  | zero => intro _; rfl
  | succ k ih =>
    intro h
    have hnone : rules.find? (fun r => r.re.test (s.take (k + 1))) = none := by
      rw [List.find?_eq_none]
      intro x hx
      rw [h k (by omega) x hx]
      simp
    simp only [longest, hnone]
    exact ih fun n hn => h n (by omega)

/-- A character no rule matches is skipped. -/
theorem scan_echo {rules : State → List Rule} {st : State} {c : Char} {s : List Char}
    (h : ∀ u v, s = u ++ v → ∀ r ∈ rules st, r.re.test (c :: u) = false) : scan rules st (c :: s) = scan rules st s := by
  rw [scan, longest_none]
  intro n hn r hr
  rw [List.take_succ_cons]
  exact h _ _ (List.take_append_drop n s).symm r hr

theorem scan_nil (rules : State → List Rule) (st : State) : scan rules st [] = [] := by rw [scan]

end Verif.Scan
