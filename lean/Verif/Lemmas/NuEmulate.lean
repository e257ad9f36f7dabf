import Verif.Model.NuEmulate
import Verif.Props.NonUniformInlet

/-! The source vector and the queues of a simulation on a non-uniform grid. -/

set_option linter.unusedSectionVars false
set_option linter.unusedSimpArgs false
set_option linter.unusedVariables false

namespace Verif.NU
open Verif.Dim Verif.TG Verif.Stk Verif.SM

variable {K : Type} [Field K] [LinearOrder K] [IsStrictOrderedRing K] {π : Type}

/-! ### Queues -/

/-- The element once one value is taken from its queue. -/
def popEl (e : FEl K) : FEl K := { e with powers := e.powers.tail }

/-- One value is taken from each element up to the first one that has none left. -/
def popFront (es : List (FEl K)) : List (FEl K) :=
  (es.takeWhile fun e => decide (e.powers ≠ [])).map popEl ++ es.dropWhile fun e => decide (e.powers ≠ [])

/-- Values appended to the elements, one each, as long as there are values. -/
def pushFront : List (FEl K) → List K → List (FEl K)
  | [], _ => []
  | e :: es, [] => e :: es
  | e :: es, v :: vs => { e with powers := e.powers ++ [v] } :: pushFront es vs

/-- The elements of the floorplans, from the bottom. -/
def elsOf (fl : List (Option (List (FEl K)))) : List (FEl K) := fl.flatMap fun o => o.getD []

theorem popFront_cons_empty {e : FEl K} {es : List (FEl K)} (h : e.powers = []) : popFront (e :: es) = e :: es := by
  simp [popFront, h]

theorem popFront_cons {e : FEl K} {es : List (FEl K)} (h : e.powers ≠ []) : popFront (e :: es) = popEl e :: popFront es := by
  simp [popFront, h]

theorem popFront_all {es : List (FEl K)} (h : ∀ e ∈ es, e.powers ≠ []) : popFront es = es.map popEl := by
  induction es with
  | nil => rfl
  | cons e es ih => rw [popFront_cons (h e (by simp)), ih fun e he => h e (by simp [he])]; rfl

theorem popFront_append_all {A B : List (FEl K)} (h : ∀ e ∈ A, e.powers ≠ []) : popFront (A ++ B) = A.map popEl ++ popFront B := by
  induction A with
  | nil => simp
  | cons a A ih => rw [List.cons_append, popFront_cons (h a (by simp)), ih (fun e he => h e (by simp [he]))]; rfl

theorem popFront_append_fail {A B : List (FEl K)} (h : ∃ e ∈ A, e.powers = []) : popFront (A ++ B) = popFront A ++ B := by
  induction A with
  | nil => simp at h
  | cons a A ih =>
    by_cases ha : a.powers = []
    · rw [List.cons_append, popFront_cons_empty ha, popFront_cons_empty ha]; rfl
    · rw [List.cons_append, popFront_cons ha, popFront_cons ha, ih]
      · rfl
      · obtain ⟨e, he, h⟩ := h
        rcases List.mem_cons.mp he with rfl | he
        · exact absurd h ha
        · exact ⟨e, he, h⟩

/-- The same floorplan, but for the queues. -/
def bareEls (es : List (FEl K)) : List (FEl K) := es.map fun e => { e with powers := [] }

theorem bareEls_popFront (es : List (FEl K)) : bareEls (popFront es) = bareEls es := by
  induction es with
  | nil => rfl
  | cons e es ih =>
    by_cases h : e.powers = []
    · rw [popFront_cons_empty h]
    · rw [popFront_cons h]
      unfold bareEls at ih ⊢
      rw [List.map_cons, List.map_cons, ih]; rfl

theorem bareEls_pushFront (es : List (FEl K)) (vs : List K) : bareEls (pushFront es vs) = bareEls es := by
  induction es generalizing vs with
  | nil => rfl
  | cons e es ih =>
    cases vs with
    | nil => rfl
    | cons v vs =>
      have := ih vs
      unfold bareEls at this ⊢
      rw [pushFront, List.map_cons, List.map_cons, this]

theorem popF_ok (es : List (FEl K)) : (popF es).2.2 = es.all fun e => decide (e.powers ≠ []) := by
  induction es with
  | nil => rfl
  | cons e es ih =>
    rw [popF]
    cases h : e.powers with
    | nil => simp [h]
    | cons p ps => simp [h, ih]

theorem popF_els (es : List (FEl K)) : (popF es).2.1 = popFront es := by
  induction es with
  | nil => rfl
  | cons e es ih =>
    rw [popF]
    cases h : e.powers with
    | nil => rw [popFront_cons_empty h]
    | cons p ps =>
      rw [popFront_cons (by rw [h]; simp), ← ih]
      simp only [popEl, h, List.tail_cons]

theorem popPowers_popF (es : List (FEl K)) : popPowers es = if (popF es).2.2 then some ((popF es).1, (popF es).2.1) else none := by
  induction es with
  | nil => rfl
  | cons e es ih =>
    rw [popPowers, popF]
    cases h : e.powers with
    | nil => simp
    | cons p ps =>
      simp only [ih]
      by_cases hc : (popF es).2.2 = true
      · simp [hc]
      · simp [hc]

theorem addPowers_F (st : SrcSt K) (l : Nat) : addPowers st l = if (addPowersF st l).2 then some (addPowersF st l).1 else none := by
  unfold addPowers addPowersF
  cases st.flps.getD l none with
  | none => simp
  | some es =>
    simp only [popPowers_popF]
    by_cases hc : (popF es).2.2 = true
    · simp [hc]
    · simp [hc]

theorem nextLayer_F (cs : List (Cell K)) (l : Nat) (r : SrcSt K × Bool) (x : Option (SrcSt K)) (h : x = if r.2 then some r.1 else none) :
    (x.map fun (st : SrcSt K) => { st with pos := st.pos + (layerCells cs st.pos l).length }) =
      if (nextLayer cs l r).2 then some (nextLayer cs l r).1 else none := by
  subst h
  unfold nextLayer
  by_cases hc : r.2 = true
  · simp [hc]
  · simp [hc]

theorem srcLayer_F (g : TGrid K) (d : Dims K) (cs : List (Cell K)) (st : SrcSt K) (l : Nat) :
    srcLayer g d cs st l = if (srcLayerF g d cs st l).2 then some (srcLayerF g d cs st l).1 else none := by
  unfold srcLayer srcLayerF
  simp only
  apply nextLayer_F
  cases typeAt g l <;> simp only [addPowers_F, if_true] <;> rfl

theorem srcLayers_F (g : TGrid K) (d : Dims K) (cs : List (Cell K)) (ls : List Nat) (st : SrcSt K) :
    ls.foldlM (srcLayer g d cs) st = if (srcLayersF g d cs ls st).2 then some (srcLayersF g d cs ls st).1 else none := by
  induction ls generalizing st with
  | nil => simp [srcLayersF]
  | cons l ls ih =>
    rw [List.foldlM_cons, srcLayer_F, srcLayersF]
    by_cases hc : (srcLayerF g d cs st l).2 = true
    · simp only [hc, if_true]
      exact ih _
    · simp [hc]

/-! ### Floorplans and layers -/

/-- Floorplans are in the source layers. -/
def FlpsFit (g : TGrid K) (l : Nat) (fl : List (Option (List (FEl K)))) : Prop :=
  ∀ i o, fl[i]? = some o → typeAt g (l + i) ≠ .none ∧ isSource (typeAt g (l + i)) = o.isSome

theorem FlpsFit.tail {g : TGrid K} {l : Nat} {o : Option (List (FEl K))} {fl : List (Option (List (FEl K)))} (h : FlpsFit g l (o :: fl)) :
    FlpsFit g (l + 1) fl := by
  intro i o' hi
  have := h (i + 1) o' (by simpa using hi)
  rwa [show l + 1 + i = l + (i + 1) by omega]

/-- Queues after the loop over the layers: layers are visited as long as all the elements have a value. -/
def popLayers : List (Option (List (FEl K))) → List (Option (List (FEl K))) × Bool
  | [] => ([], true)
  | none :: fl => (none :: (popLayers fl).1, (popLayers fl).2)
  | some es :: fl => if (popF es).2.2 then (some (popF es).2.1 :: (popLayers fl).1, (popLayers fl).2) else (some (popF es).2.1 :: fl, false)

theorem popLayers_els (fl : List (Option (List (FEl K)))) : elsOf (popLayers fl).1 = popFront (elsOf fl) := by
  induction fl with
  | nil => rfl
  | cons o fl ih =>
    cases o with
    | none => simpa [popLayers, elsOf] using ih
    | some es =>
      simp only [popLayers]
      by_cases hc : (popF es).2.2 = true
      · rw [if_pos hc]
        have hall : ∀ e ∈ es, e.powers ≠ [] := by rw [popF_ok] at hc; simpa using hc
        have h1 : elsOf (some es :: fl) = es ++ elsOf fl := rfl
        have h2 : elsOf (some (popF es).2.1 :: (popLayers fl).1) = (popF es).2.1 ++ elsOf (popLayers fl).1 := rfl
        rw [h1, popFront_append_all hall, h2, ih, popF_els, popFront_all hall]
      · rw [if_neg hc]
        have hex : ∃ e ∈ es, e.powers = [] := by
          rw [popF_ok] at hc
          simpa using hc
        have h1 : elsOf (some es :: fl) = es ++ elsOf fl := rfl
        have h2 : elsOf (some (popF es).2.1 :: fl) = (popF es).2.1 ++ elsOf fl := rfl
        rw [h1, popFront_append_fail hex, h2, popF_els]

theorem popLayers_ok (fl : List (Option (List (FEl K)))) : (popLayers fl).2 = (elsOf fl).all fun e => decide (e.powers ≠ []) := by
  induction fl with
  | nil => rfl
  | cons o fl ih =>
    cases o with
    | none => simpa [popLayers, elsOf] using ih
    | some es =>
      have h1 : elsOf (some es :: fl) = es ++ elsOf fl := rfl
      simp only [popLayers]
      rw [h1, List.all_append, ← ih, ← popF_ok]
      by_cases hc : (popF es).2.2 = true
      · rw [if_pos hc, hc]; rfl
      · rw [if_neg hc]; simp [hc]

theorem popLayers_bare (fl : List (Option (List (FEl K)))) : bare (popLayers fl).1 = bare fl := by
  have hb : ∀ es : List (FEl K), (popF es).2.1.map (fun e => ({ e with powers := [] } : FEl K)) = es.map fun e => ({ e with powers := [] } : FEl K) :=
    fun es => by rw [popF_els]; exact bareEls_popFront es
  induction fl with
  | nil => rfl
  | cons o fl ih =>
    unfold bare at ih ⊢
    cases o with
    | none => simpa [popLayers] using ih
    | some es =>
      simp only [popLayers]
      by_cases hc : (popF es).2.2 = true
      · rw [if_pos hc]; simp only [List.map_cons, Option.map_some, ih, hb]
      · rw [if_neg hc]; simp only [List.map_cons, Option.map_some, hb]

theorem nextLayer_keeps (cs : List (Cell K)) (l : Nat) (r : SrcSt K × Bool) : (nextLayer cs l r).1.flps = r.1.flps ∧ (nextLayer cs l r).2 = r.2 := by
  unfold nextLayer
  by_cases hc : r.2 = true
  · rw [if_pos hc]; exact ⟨rfl, hc.symm⟩
  · rw [if_neg hc]; exact ⟨rfl, rfl⟩

/-- What one layer does to the queues. -/
theorem srcLayerF_flps (g : TGrid K) (d : Dims K) (cs : List (Cell K)) (st : SrcSt K) {l : Nat} {o : Option (List (FEl K))}
    (ho : st.flps.getD l none = o) (ht : typeAt g l ≠ .none) (hs : isSource (typeAt g l) = o.isSome) :
    (srcLayerF g d cs st l).2 = (o.elim true fun es => (popF es).2.2) ∧
    (srcLayerF g d cs st l).1.flps = (o.elim st.flps fun es => st.flps.set l (some (popF es).2.1)) := by
  have hadd : ∀ st' : SrcSt K, st'.flps = st.flps → ∀ es, o = some es → (addPowersF st' l).2 = (popF es).2.2 ∧
      (addPowersF st' l).1.flps = st.flps.set l (some (popF es).2.1) := by
    intro st' h1 es he
    unfold addPowersF
    rw [h1, ho, he]
    exact ⟨rfl, rfl⟩
  unfold srcLayerF
  simp only
  obtain ⟨n1, n2⟩ := nextLayer_keeps cs l (match typeAt g l with
    | .source | .sourceSpr => addPowersF st l
    | .solid | .solidSpr | .vwallCh | .vwallPf | .topWall | .bottomWall => (st, true)
    | .solidAmb => ({ st with src := addFrom st.src st.pos (((topTcsNU g d cs).take (cs.length - st.pos)).map fun t => topTemp g * t) }, true)
    | .sourceAmb => addPowersF { st with src := addFrom st.src st.pos (((topTcsNU g d cs).take (cs.length - st.pos)).map fun t => topTemp g * t) } l
    | .solidPcb => ({ st with src := addFrom st.src st.pos (((botTcsNU g d cs).take (layerCells cs st.pos l).length).map fun t => botTemp g * t) }, true)
    | .sourcePcb => addPowersF { st with src := addFrom st.src st.pos (((botTcsNU g d cs).take (layerCells cs st.pos l).length).map fun t => botTemp g * t) } l
    | .ch4rm | .ch2rm | .pfInline | .pfStag => ({ st with src := setFrom st.src st.pos (inlets g d l) }, true)
    | .none => (st, false))
  revert n1 n2 ht hs
  cases o with
  | none =>
    cases typeAt g l <;> intro ht hs n1 n2 <;> first
      | (exact absurd rfl ht)
      | (simp [isSource] at hs; done)
      | (simp only at n1 n2 ⊢; exact ⟨n2, n1⟩)
  | some es =>
    cases typeAt g l <;> intro ht hs n1 n2 <;> first
      | (exact absurd rfl ht)
      | (simp [isSource] at hs; done)
      | (simp only at n1 n2 ⊢; rw [n1, n2]; exact hadd st rfl es rfl)
      | (simp only at n1 n2 ⊢; rw [n1, n2]
         exact hadd { st with src := addFrom st.src st.pos (((topTcsNU g d cs).take (cs.length - st.pos)).map fun t => topTemp g * t) } rfl es rfl)
      | (simp only at n1 n2 ⊢; rw [n1, n2]
         exact hadd { st with src := addFrom st.src st.pos (((botTcsNU g d cs).take (layerCells cs st.pos l).length).map fun t => botTemp g * t) }
           rfl es rfl)

theorem srcLayersF_flps (g : TGrid K) (d : Dims K) (cs : List (Cell K)) (fl : List (Option (List (FEl K)))) :
    ∀ (pre : List (Option (List (FEl K)))) (st : SrcSt K), st.flps = pre ++ fl → FlpsFit g pre.length fl →
      (srcLayersF g d cs (List.range' pre.length fl.length) st).2 = (popLayers fl).2 ∧
      (srcLayersF g d cs (List.range' pre.length fl.length) st).1.flps = pre ++ (popLayers fl).1 := by
  induction fl with
  | nil => intro pre st h _; exact ⟨rfl, h⟩
  | cons o fl ih =>
    intro pre st h hfit
    have h0 := hfit 0 o rfl
    rw [Nat.add_zero] at h0
    have hget : st.flps.getD pre.length none = o := by
      rw [h, List.getD_eq_getElem?_getD, List.getElem?_append_right (le_refl _)]; simp
    obtain ⟨a1, a2⟩ := srcLayerF_flps g d cs st hget h0.1 h0.2
    rw [List.length_cons, List.range'_succ, srcLayersF]
    have hset : ∀ x : Option (List (FEl K)), (pre ++ o :: fl).set pre.length x = (pre ++ [x]) ++ fl := by
      intro x; rw [List.set_append_right _ _ (le_refl _)]; simp
    cases o with
    | none =>
      simp only [Option.elim_none] at a1 a2
      rw [if_pos a1]
      have := ih (pre ++ [none]) (srcLayerF g d cs st pre.length).1 (by rw [a2, h]; simp) (by simpa using hfit.tail)
      rw [List.length_append, List.length_singleton] at this
      rw [this.1, this.2]
      exact ⟨rfl, by simp [popLayers]⟩
    | some es =>
      simp only [Option.elim_some] at a1 a2
      rw [h, hset] at a2
      simp only [popLayers]
      by_cases hc : (popF es).2.2 = true
      · rw [if_pos (a1.trans hc), if_pos hc]
        have := ih (pre ++ [some (popF es).2.1]) (srcLayerF g d cs st pre.length).1 a2 (by simpa using hfit.tail)
        rw [List.length_append, List.length_singleton] at this
        rw [this.1, this.2]
        exact ⟨rfl, by simp⟩
      · rw [if_neg (by rw [a1]; exact hc), if_neg hc, a1, a2]
        exact ⟨by simpa using hc, by simp⟩

/-! ### Inserting -/

theorem insertFlp_eq (es : List (FEl K)) (vs : List K) :
    insertFlp es vs = (pushFront es vs, vs.drop es.length, decide (es.length ≤ vs.length)) := by
  induction es generalizing vs with
  | nil => simp [insertFlp, pushFront]
  | cons e es ih =>
    cases vs with
    | nil => simp [insertFlp, pushFront]
    | cons v vs => simp [insertFlp, pushFront, ih]

theorem pushFront_append (A B : List (FEl K)) (vs : List K) (h : A.length ≤ vs.length) :
    pushFront (A ++ B) vs = pushFront A vs ++ pushFront B (vs.drop A.length) := by
  induction A generalizing vs with
  | nil => simp [pushFront]
  | cons a A ih =>
    cases vs with
    | nil => simp at h
    | cons v vs => simp [pushFront, ih vs (by simpa using h)]

theorem pushFront_nil (A : List (FEl K)) : pushFront A [] = A := by cases A <;> rfl

theorem pushFront_append_fail (A B : List (FEl K)) (vs : List K) (h : vs.length < A.length) :
    pushFront (A ++ B) vs = pushFront A vs ++ B := by
  induction A generalizing vs with
  | nil => simp at h
  | cons a A ih =>
    cases vs with
    | nil => simp [pushFront]
    | cons v vs => simp [pushFront, ih vs (by simpa using h)]

theorem insertLayers_eq (g : TGrid K) (fl : List (Option (List (FEl K)))) : ∀ (pre : List (Option (List (FEl K)))) (vs : List K),
    FlpsFit g pre.length fl → ∃ fl', insertLayers g fl.length pre.length (pre ++ fl) vs = (pre ++ fl', decide ((elsOf fl).length ≤ vs.length)) ∧
      bare fl' = bare fl ∧ elsOf fl' = pushFront (elsOf fl) vs := by
  induction fl with
  | nil => intro pre vs _; exact ⟨[], by simp [insertLayers, elsOf], rfl, by cases vs <;> rfl⟩
  | cons o fl ih =>
    intro pre vs hfit
    have h0 := hfit 0 o rfl
    rw [Nat.add_zero] at h0
    have hget : (pre ++ o :: fl).getD pre.length none = o := by
      rw [List.getD_eq_getElem?_getD, List.getElem?_append_right (le_refl _)]; simp
    have hset : ∀ x : Option (List (FEl K)), (pre ++ o :: fl).set pre.length x = (pre ++ [x]) ++ fl := by
      intro x; rw [List.set_append_right _ _ (le_refl _)]; simp
    have hsrc : isSource (typeAt g pre.length) = true → insertLayers g (o :: fl).length pre.length (pre ++ o :: fl) vs =
        (if (insertFlp (o.getD []) vs).2.2 then insertLayers g fl.length (pre.length + 1) ((pre ++ [some (insertFlp (o.getD []) vs).1]) ++ fl)
          (insertFlp (o.getD []) vs).2.1 else ((pre ++ [some (insertFlp (o.getD []) vs).1]) ++ fl, false)) := by
      intro hs
      rw [List.length_cons, insertLayers]
      revert hs
      cases typeAt g pre.length <;> intro hs <;> first
        | (simp [isSource] at hs; done)
        | (simp only [hget, hset])
    have hno : isSource (typeAt g pre.length) = false → insertLayers g (o :: fl).length pre.length (pre ++ o :: fl) vs =
        insertLayers g fl.length (pre.length + 1) (pre ++ o :: fl) vs := by
      intro hs
      rw [List.length_cons, insertLayers]
      have hn := h0.1
      revert hs hn
      cases typeAt g pre.length <;> intro hs hn <;> first
        | (simp [isSource] at hs; done)
        | (exact absurd rfl hn)
        | rfl
    have htail := hfit.tail
    cases o with
    | none =>
      rw [hno (by rw [h0.2]; rfl)]
      obtain ⟨fl', e1, e2, e3⟩ := ih (pre ++ [none]) vs (by simpa using htail)
      rw [List.length_append, List.length_singleton] at e1
      refine ⟨none :: fl', ?_, ?_, ?_⟩
      · rw [show pre ++ none :: fl = (pre ++ [none]) ++ fl by simp, e1]
        simp [elsOf]
      · unfold bare at e2 ⊢; simp [e2]
      · simpa [elsOf] using e3
    | some es =>
      rw [hsrc (by rw [h0.2]; rfl)]
      simp only [Option.getD_some, insertFlp_eq]
      have h1 : elsOf (some es :: fl) = es ++ elsOf fl := rfl
      by_cases hc : es.length ≤ vs.length
      · simp only [hc, decide_true, if_true]
        obtain ⟨fl', e1, e2, e3⟩ := ih (pre ++ [some (pushFront es vs)]) (vs.drop es.length) (by simpa using htail)
        rw [List.length_append, List.length_singleton] at e1
        refine ⟨some (pushFront es vs) :: fl', ?_, ?_, ?_⟩
        · rw [e1, h1, List.length_append, List.length_drop]
          simp only [List.append_assoc, List.singleton_append, Prod.mk.injEq, true_and, decide_eq_decide]
          omega
        · have := bareEls_pushFront es vs
          unfold bareEls at this
          unfold bare at e2 ⊢; simp only [List.map_cons, Option.map_some, e2, this]
        · rw [h1, pushFront_append _ _ _ hc, ← e3]; rfl
      · simp only [hc, decide_false, Bool.false_eq_true, if_false]
        refine ⟨some (pushFront es vs) :: fl, ?_, ?_, ?_⟩
        · rw [h1, List.length_append]
          simp only [List.append_assoc, List.singleton_append, Prod.mk.injEq, true_and]
          symm; rw [decide_eq_false_iff_not]; omega
        · have := bareEls_pushFront es vs
          unfold bareEls at this
          unfold bare; simp only [List.map_cons, Option.map_some, this]
        · rw [h1, pushFront_append_fail _ _ _ (by omega)]; rfl

end Verif.NU
