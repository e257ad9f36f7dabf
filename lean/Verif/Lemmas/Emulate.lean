import Verif.Model.Emulate
import Verif.Lemmas.Inject

/-! How the loops of the source vector and of the insertion of powers act on the floorplan elements. -/

set_option linter.unusedSectionVars false
set_option linter.unusedSimpArgs false
set_option linter.unusedVariables false

namespace Verif.Emu
open Verif.Dim Verif.TG Verif.SM Verif.Flp

variable {K : Type} [Field K] [LinearOrder K] [IsStrictOrderedRing K]

/-- All the floorplan elements of a list of floorplans, in order. -/
def els (fs : List (Option (List (FlpEl K)))) : List (FlpEl K) := fs.flatMap fun o => o.getD []

/-- A layer with a power source. -/
def isSrc : LType → Bool
  | .source | .sourceAmb | .sourcePcb | .sourceSpr => true
  | _ => false

/-- The floorplans `fs` sit in the source layers among the layers from `l` on. -/
def FlpsOk (g : TGrid K) (l : Nat) (fs : List (Option (List (FlpEl K)))) : Prop :=
  ∀ i o, fs[i]? = some o → typeAt g (l + i) ≠ .none ∧ isSrc (typeAt g (l + i)) = o.isSome

/-- Take one value from each element up to the first one that has none left. -/
def popStart (es : List (FlpEl K)) : List (FlpEl K) :=
  (es.takeWhile fun e => decide (e.powers ≠ [])).map pop ++ es.dropWhile fun e => decide (e.powers ≠ [])

/-- Has every element a value left? -/
def allPow (es : List (FlpEl K)) : Bool := es.all fun e => decide (e.powers ≠ [])

theorem popStart_all {es : List (FlpEl K)} (h : ∀ e ∈ es, e.powers ≠ []) : popStart es = es.map pop := by
  induction es with
  | nil => rfl
  | cons e es ih =>
    have := h e (by simp)
    have ih := ih fun e he => h e (by simp [he])
    unfold popStart at ih ⊢
    simp [this] at ih ⊢
    exact ih

theorem popStart_cons_empty {e : FlpEl K} {es : List (FlpEl K)} (h : e.powers = []) : popStart (e :: es) = e :: es := by
  simp [popStart, h]

theorem popStart_cons {e : FlpEl K} {es : List (FlpEl K)} (h : e.powers ≠ []) : popStart (e :: es) = pop e :: popStart es := by
  simp [popStart, h]

theorem takePowers_fst (es : List (FlpEl K)) : (takePowers es).1 = popStart es := by
  induction es with
  | nil => rfl
  | cons e es ih =>
    unfold takePowers
    split
    · next h => rw [popStart_cons_empty h]
    · next p ps h =>
      rw [popStart_cons (by rw [h]; simp), ← ih]
      simp [pop, h]

theorem popStart_append_all {A B : List (FlpEl K)} (h : ∀ e ∈ A, e.powers ≠ []) : popStart (A ++ B) = A.map pop ++ popStart B := by
  induction A with
  | nil => simp
  | cons a A ih =>
    rw [List.cons_append, popStart_cons (h a (by simp)), ih (fun e he => h e (by simp [he]))]; rfl

theorem popStart_append_fail {A B : List (FlpEl K)} (h : ∃ e ∈ A, e.powers = []) : popStart (A ++ B) = popStart A ++ B := by
  induction A with
  | nil => simp at h
  | cons a A ih =>
    by_cases ha : a.powers = []
    · rw [List.cons_append, popStart_cons_empty ha, popStart_cons_empty ha]; rfl
    · rw [List.cons_append, popStart_cons ha, popStart_cons ha, ih]
      · rfl
      · obtain ⟨e, he, h⟩ := h
        rcases List.mem_cons.mp he with rfl | he
        · exact absurd h ha
        · exact ⟨e, he, h⟩

theorem popStart_length (es : List (FlpEl K)) : (popStart es).length = es.length := by
  unfold popStart
  rw [List.length_append, List.length_map, ← List.length_append, List.takeWhile_append_dropWhile]

theorem allPow_true {es : List (FlpEl K)} : allPow es = true ↔ ∀ e ∈ es, e.powers ≠ [] := by simp [allPow]

theorem allPow_false {es : List (FlpEl K)} : allPow es = false ↔ ∃ e ∈ es, e.powers = [] := by
  rw [← Bool.not_eq_true, allPow_true]; push_neg; rfl

theorem fillSources_eq (d : Dims K) (off : Nat) (es : List (FlpEl K)) (x : List K) :
    fillSourcesFlp d off es x = (popStart es, if allPow es then multiply d off es (es.map next) x else x, allPow es) := by
  by_cases h : allPow es = true
  · rw [fillSources_ok d off es x (allPow_true.mp h), popStart_all (allPow_true.mp h), h]; rfl
  · have h' : allPow es = false := by simpa using h
    rw [fillSources_fail d off es x (allPow_false.mp h'), takePowers_fst, h']; rfl

/-! ### One layer -/

theorem flpAt_append (A B : List (Option (List (FlpEl K)))) (o : Option (List (FlpEl K))) : flpAt (A ++ o :: B) A.length = o.getD [] := by
  simp [flpAt, List.getD_eq_getElem?_getD]

theorem set_append (A B : List (Option (List (FlpEl K)))) (o o' : Option (List (FlpEl K))) : (A ++ o :: B).set A.length o' = A ++ o' :: B := by
  simp

/-- What one layer adds to the source vector. -/
def layerAdd (g : TGrid K) (d : Dims K) (tt bt : List K) (l off : Nat) (es : List (FlpEl K)) (x : List K) : List K :=
  match typeAt g l with
  | .source | .sourceSpr => multiply d off es (es.map next) x
  | .solidAmb => addAmbient off (area d) (topAmb g) tt x
  | .sourceAmb => multiply d off es (es.map next) (addAmbient off (area d) (topAmb g) tt x)
  | .solidPcb => addAmbient off (area d) (botAmb g) bt x
  | .sourcePcb => multiply d off es (es.map next) (addAmbient off (area d) (botAmb g) bt x)
  | .ch4rm | .ch2rm | .pfInline | .pfStag => setInlet g d l off x
  | .solid | .solidSpr | .vwallCh | .vwallPf | .topWall | .bottomWall | .none => x

theorem updateLayer_ok (g : TGrid K) (d : Dims K) (tt bt : List K) (off : Nat) (A B : List (Option (List (FlpEl K))))
    (o : Option (List (FlpEl K))) (x : List K) (h1 : typeAt g A.length ≠ .none) (h2 : isSrc (typeAt g A.length) = o.isSome)
    (hp : ∀ e ∈ o.getD [], e.powers ≠ []) :
    updateLayer g d tt bt A.length off (A ++ o :: B) x =
      (A ++ (o.map fun f => f.map pop) :: B, layerAdd g d tt bt A.length off (o.getD []) x, true) := by
  have ht := allPow_true.mpr hp
  unfold updateLayer layerAdd fillLayer
  rw [flpAt_append]
  cases o with
  | none => cases h : typeAt g A.length <;> simp_all [isSrc]
  | some f =>
    simp only [Option.getD_some] at ht hp ⊢
    simp only [fillSources_eq, ht, popStart_all hp, set_append]
    cases h : typeAt g A.length <;> simp_all [isSrc]

theorem updateLayer_fail (g : TGrid K) (d : Dims K) (tt bt : List K) (off : Nat) (A B : List (Option (List (FlpEl K))))
    (o : Option (List (FlpEl K))) (x : List K) (h2 : isSrc (typeAt g A.length) = o.isSome)
    (hp : ∃ e ∈ o.getD [], e.powers = []) :
    ∃ x', updateLayer g d tt bt A.length off (A ++ o :: B) x = (A ++ (o.map popStart) :: B, x', false) := by
  have ht := allPow_false.mpr hp
  unfold updateLayer fillLayer
  rw [flpAt_append]
  cases o with
  | none => simp at hp
  | some f =>
    simp only [Option.getD_some] at ht hp ⊢
    simp only [fillSources_eq, ht, set_append]
    cases h : typeAt g A.length <;> simp_all [isSrc]

/-! ### All the layers -/

/-- What the layers add to the source vector. -/
def layersAdd (g : TGrid K) (d : Dims K) (tt bt : List K) : Nat → Nat → List (Option (List (FlpEl K))) → List K → List K
  | _, _, [], x => x
  | l, off, o :: fs, x => layersAdd g d tt bt (l + 1) (off + area d) fs (layerAdd g d tt bt l off (o.getD []) x)

theorem FlpsOk.tail {g : TGrid K} {l : Nat} {o : Option (List (FlpEl K))} {fs : List (Option (List (FlpEl K)))} (h : FlpsOk g l (o :: fs)) :
    FlpsOk g (l + 1) fs := by
  intro i o' hi
  have := h (i + 1) o' (by simpa using hi)
  rwa [show l + (i + 1) = l + 1 + i by omega] at this

theorem updateFrom_ok (g : TGrid K) (d : Dims K) (tt bt : List K) : ∀ (B A : List (Option (List (FlpEl K)))) (off : Nat) (x : List K),
    FlpsOk g A.length B → (∀ e ∈ els B, e.powers ≠ []) →
    updateFrom g d tt bt B.length A.length off (A ++ B) x =
      (A ++ B.map (Option.map (List.map pop)), layersAdd g d tt bt A.length off B x, true) := by
  intro B
  induction B with
  | nil => intro A off x _ _; simp [updateFrom, layersAdd]
  | cons o B ih =>
    intro A off x hok hp
    obtain ⟨h1, h2⟩ := hok 0 o (by simp)
    have := updateLayer_ok g d tt bt off A B o x h1 h2 (fun e he => hp e (by simp only [els, List.flatMap_cons, List.mem_append]; exact Or.inl he))
    simp only [List.length_cons, updateFrom, this, if_true, layersAdd, List.map_cons]
    have ih' := ih (A ++ [o.map fun f => f.map pop]) (off + area d) (layerAdd g d tt bt A.length off (o.getD []) x)
      (by rw [List.length_append]; exact hok.tail)
      (fun e he => hp e (by simp only [els, List.flatMap_cons, List.mem_append]; exact Or.inr he))
    simpa using ih'

theorem updateFrom_fail (g : TGrid K) (d : Dims K) (tt bt : List K) : ∀ (B A : List (Option (List (FlpEl K)))) (off : Nat) (x : List K),
    FlpsOk g A.length B → (∃ e ∈ els B, e.powers = []) →
    ∃ B' x', updateFrom g d tt bt B.length A.length off (A ++ B) x = (A ++ B', x', false) ∧
      B'.map Option.isSome = B.map Option.isSome ∧ els B' = popStart (els B) := by
  intro B
  induction B with
  | nil => intro A off x _ h; simp [els] at h
  | cons o B ih =>
    intro A off x hok hp
    obtain ⟨h1, h2⟩ := hok 0 o (by simp)
    have hc : els (o :: B) = o.getD [] ++ els B := by simp [els]
    by_cases ho : ∃ e ∈ o.getD [], e.powers = []
    · obtain ⟨x', hx'⟩ := updateLayer_fail g d tt bt off A B o x h2 ho
      refine ⟨o.map popStart :: B, x', ?_, by simp, ?_⟩
      · simp [List.length_cons, updateFrom, hx']
      · rw [hc, popStart_append_fail ho]
        cases o with
        | none => simp at ho
        | some f => simp [els]
    · have ho' : ∀ e ∈ o.getD [], e.powers ≠ [] := fun e he h => ho ⟨e, he, h⟩
      have hB : ∃ e ∈ els B, e.powers = [] := by
        obtain ⟨e, he, h⟩ := hp
        rw [hc, List.mem_append] at he
        rcases he with he | he
        · exact absurd h (ho' e he)
        · exact ⟨e, he, h⟩
      have := updateLayer_ok g d tt bt off A B o x h1 h2 ho'
      obtain ⟨B', x', e1, e2, e3⟩ := ih (A ++ [o.map fun f => f.map pop]) (off + area d) (layerAdd g d tt bt A.length off (o.getD []) x)
        (by rw [List.length_append]; exact hok.tail) hB
      refine ⟨(o.map fun f => f.map pop) :: B', x', ?_, by simp [e2], ?_⟩
      · simp only [List.length_cons, updateFrom, this, if_true]
        simpa using e1
      · rw [hc, popStart_append_all ho', ← e3]
        cases o <;> simp [els]

/-! ### Inserting powers -/

/-- Append the values to the elements, one each, as long as there are values. -/
def pushEach : List (FlpEl K) → List K → List (FlpEl K)
  | [], _ => []
  | e :: es, [] => e :: es
  | e :: es, v :: vs => { e with powers := e.powers ++ [v] } :: pushEach es vs

theorem insertPowersFlp_eq (es : List (FlpEl K)) (vs : List K) :
    insertPowersFlp es vs = (pushEach es vs, vs.drop es.length, decide (es.length ≤ vs.length)) := by
  induction es generalizing vs with
  | nil => simp [insertPowersFlp, pushEach]
  | cons e es ih =>
    cases vs with
    | nil => simp [insertPowersFlp, pushEach]
    | cons v vs => simp [insertPowersFlp, pushEach, ih]

theorem pushEach_append (A B : List (FlpEl K)) (vs : List K) (h : A.length ≤ vs.length) :
    pushEach (A ++ B) vs = pushEach A vs ++ pushEach B (vs.drop A.length) := by
  induction A generalizing vs with
  | nil => simp [pushEach]
  | cons a A ih =>
    cases vs with
    | nil => simp at h
    | cons v vs => simp [pushEach, ih vs (by simpa using h)]

theorem pushEach_append_fail (A B : List (FlpEl K)) (vs : List K) (h : vs.length < A.length) :
    pushEach (A ++ B) vs = pushEach A vs ++ B := by
  induction A generalizing vs with
  | nil => simp at h
  | cons a A ih =>
    cases vs with
    | nil => simp [pushEach]
    | cons v vs => simp [pushEach, ih vs (by simpa using h)]

theorem pushEach_length (es : List (FlpEl K)) (vs : List K) : (pushEach es vs).length = es.length := by
  induction es generalizing vs with
  | nil => simp [pushEach]
  | cons e es ih => cases vs <;> simp [pushEach, ih]

theorem insertFrom_eq (g : TGrid K) : ∀ (B A : List (Option (List (FlpEl K)))) (vs : List K), FlpsOk g A.length B →
    ∃ B', insertFrom g B.length A.length (A ++ B) vs = (A ++ B', decide ((els B).length ≤ vs.length)) ∧
      B'.map Option.isSome = B.map Option.isSome ∧ els B' = pushEach (els B) vs := by
  intro B
  induction B with
  | nil => intro A vs _; exact ⟨[], by simp [insertFrom, els], by simp, by simp [els, pushEach]⟩
  | cons o B ih =>
    intro A vs hok
    obtain ⟨h1, h2⟩ := hok 0 o (by simp)
    have hc : els (o :: B) = o.getD [] ++ els B := by simp [els]
    have hok' : FlpsOk g (A.length + 1) B := hok.tail
    cases o with
    | none =>
      obtain ⟨B', e1, e2, e3⟩ := ih (A ++ [none]) vs (by simpa using hok')
      refine ⟨none :: B', ?_, by simp [e2], by simp [els] at e3 ⊢; exact e3⟩
      have : insertFrom g (B.length + 1) A.length (A ++ none :: B) vs = insertFrom g B.length (A.length + 1) (A ++ none :: B) vs := by
        rw [insertFrom]
        simp only [Nat.add_zero] at h1 h2
        cases h : typeAt g A.length <;> simp_all [isSrc]
      rw [List.length_cons, this, hc]
      simpa using e1
    | some f =>
      have hstep : insertFrom g (B.length + 1) A.length (A ++ some f :: B) vs =
          if f.length ≤ vs.length then insertFrom g B.length (A.length + 1) (A ++ some (pushEach f vs) :: B) (vs.drop f.length)
          else (A ++ some (pushEach f vs) :: B, false) := by
        rw [insertFrom]
        simp only [flpAt_append, Option.getD_some, insertPowersFlp_eq, set_append]
        simp only [Nat.add_zero] at h1 h2
        cases h : typeAt g A.length <;> simp_all [isSrc]
      rw [List.length_cons, hstep, hc]
      by_cases hf : f.length ≤ vs.length
      · rw [if_pos hf]
        obtain ⟨B', e1, e2, e3⟩ := ih (A ++ [some (pushEach f vs)]) (vs.drop f.length) (by simpa using hok')
        refine ⟨some (pushEach f vs) :: B', ?_, by simp [e2], ?_⟩
        · have : decide ((els B).length ≤ (vs.drop f.length).length) = decide ((f ++ els B).length ≤ vs.length) := by
            simp; omega
          rw [Option.getD_some, ← this]
          simpa using e1
        · simp [els] at e3 ⊢
          rw [e3, pushEach_append f _ vs hf]
      · rw [if_neg hf]
        refine ⟨some (pushEach f vs) :: B, ?_, by simp, ?_⟩
        · rw [Option.getD_some, List.length_append]
          have : ¬ (f.length + (els B).length ≤ vs.length) := by omega
          simp [this]
        · rw [Option.getD_some, pushEach_append_fail f _ vs (by omega)]
          simp [els]

end Verif.Emu
