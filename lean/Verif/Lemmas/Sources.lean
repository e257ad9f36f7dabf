import Verif.Props.Simulate

/-! The source vector, cell by cell. -/

set_option linter.unusedSectionVars false
set_option linter.unusedSimpArgs false
set_option linter.unusedVariables false

namespace Verif.Emu
open Verif.Dim Verif.TG Verif.SM Verif.Flp Verif.Stk

variable {K : Type} [Field K] [LinearOrder K] [IsStrictOrderedRing K] {π : Type}

/-- A floorplan element without its powers. -/
def strip (e : FlpEl K) : FlpEl K := { e with powers := [] }

/-- The floorplans without the powers. -/
def geom (fs : List (Option (List (FlpEl K)))) : List (List (FlpEl K)) := fs.map fun o => (o.getD []).map strip

/-- The cells of the elements are cells of their layer. -/
def Inside (d : Dims K) (fs : List (Option (List (FlpEl K)))) : Prop :=
  ∀ o ∈ fs, ∀ e ∈ o.getD [], ∀ p ∈ surface d e, p.1 < area d

theorem surface_strip (d : Dims K) (e : FlpEl K) : surface d (strip e) = surface d e := rfl
theorem strip_pop (e : FlpEl K) : strip (pop e) = strip e := rfl

theorem inside_congr {d : Dims K} {A B : List (Option (List (FlpEl K)))} (h : geom A = geom B) (hA : Inside d A) : Inside d B := by
  intro o ho e he p hp
  have h1 : (o.getD []).map strip ∈ geom B := List.mem_map.mpr ⟨o, ho, rfl⟩
  rw [← h] at h1
  obtain ⟨o', ho', e1⟩ := List.mem_map.mp h1
  have h2 : strip e ∈ (o.getD []).map strip := List.mem_map.mpr ⟨e, he, rfl⟩
  rw [← e1] at h2
  obtain ⟨e', he', e2⟩ := List.mem_map.mp h2
  refine hA o' ho' e' he' p ?_
  rw [← surface_strip, e2, surface_strip]; exact hp

/-! ### The geometry of the elements does not change -/

theorem takePowers_strip (es : List (FlpEl K)) : (takePowers es).1.map strip = es.map strip := by
  induction es with
  | nil => rfl
  | cons e es ih =>
    unfold takePowers
    cases h : e.powers with
    | nil => rfl
    | cons p ps => simp only [List.map_cons, ih]; rfl

theorem fillSources_strip (d : Dims K) (off : Nat) (es : List (FlpEl K)) (x : List K) :
    (fillSourcesFlp d off es x).1.map strip = es.map strip := by
  unfold fillSourcesFlp
  have := takePowers_strip es
  cases h : takePowers es with
  | mk a b => rw [h] at this; cases b <;> exact this

theorem geom_set (fs : List (Option (List (FlpEl K)))) (l : Nat) (es : List (FlpEl K)) (h : es.map strip = (flpAt fs l).map strip) :
    geom (fs.set l (some es)) = geom fs := by
  unfold geom
  rw [List.map_set, Option.getD_some, h]
  unfold flpAt
  apply List.ext_getElem (by simp)
  intro i h1 h2
  rw [List.getElem_set]
  split
  · next e =>
    subst e
    simp only [List.length_map] at h2
    simp [List.getD_eq_getElem?_getD, List.getElem?_eq_getElem h2]
  · rfl

theorem updateLayer_geom (g : TGrid K) (d : Dims K) (tt bt : List K) (l off : Nat) (fs : List (Option (List (FlpEl K)))) (x : List K) :
    geom (updateLayer g d tt bt l off fs x).1 = geom fs := by
  have h : ∀ x, geom (fillLayer d l off fs x).1 = geom fs := fun x => geom_set fs l _ (fillSources_strip d off _ x)
  unfold updateLayer
  cases typeAt g l <;> first | rfl | exact h _

theorem updateFrom_geom (g : TGrid K) (d : Dims K) (tt bt : List K) (n l off : Nat) (fs : List (Option (List (FlpEl K)))) (x : List K) :
    geom (updateFrom g d tt bt n l off fs x).1 = geom fs := by
  induction n generalizing l off fs x with
  | zero => rfl
  | succ n ih =>
    rw [updateFrom]
    split
    · rw [ih, updateLayer_geom]
    · rw [updateLayer_geom]

theorem insertFlp_strip (es : List (FlpEl K)) (vs : List K) : (insertPowersFlp es vs).1.map strip = es.map strip := by
  induction es generalizing vs with
  | nil => rfl
  | cons e es ih =>
    cases vs with
    | nil => rfl
    | cons v vs => simp only [insertPowersFlp, List.map_cons, ih]; rfl

theorem insertFrom_geom (g : TGrid K) (n l : Nat) (fs : List (Option (List (FlpEl K)))) (vs : List K) :
    geom (insertFrom g n l fs vs).1 = geom fs := by
  induction n generalizing l fs vs with
  | zero => rfl
  | succ n ih =>
    have h : geom (fs.set l (some (insertPowersFlp (flpAt fs l) vs).1)) = geom fs := geom_set fs l _ (insertFlp_strip _ _)
    rw [insertFrom]
    cases typeAt g l <;> simp only <;> first | rfl | exact ih _ _ _ | (split <;> first | (rw [ih]; exact h) | exact h)

theorem geom_exec (cfg : Cfg K π) (o : Op K) (s : Sim K π) : geom (exec cfg o s).2.flps = geom s.flps := by
  cases o with
  | step =>
    show geom (emulateStep cfg s).2.flps = _
    have hu : geom (updateSourceVector cfg.d s).1.flps = geom s.flps := updateFrom_geom _ _ _ _ _ _ _ _ _
    unfold emulateStep
    split
    · rfl
    · split
      · generalize updateSourceVector cfg.d s = us at *
        obtain ⟨s1, ok⟩ := us
        simp only at hu ⊢
        cases ok
        · exact hu
        · simp only [if_true]; rw [(finishStep_cases cfg s1).1]; exact hu
      · rw [(finishStep_cases cfg s).1]
  | insert vs => exact insertFrom_geom _ _ _ _ _
  | reset => rfl
  | flow f => rw [exec, (updateFlow_keeps cfg s f).1]

/-! ### One layer -/

/-- The value that a layer gives to its `k`-th cell: powers, ambient temperature, coolant inlet. -/
def layerTerm (g : TGrid K) (d : Dims K) (tt bt : List K) (l : Nat) (es : List (FlpEl K)) (k : Nat) : K :=
  (if isSrc (typeAt g l) then (es.map fun e => next e * weightAt (surface d e) k).sum else 0) +
  (match typeAt g l with
    | .solidAmb | .sourceAmb => topAmb g * tt.getD k 0
    | .solidPcb | .sourcePcb => botAmb g * bt.getD k 0
    | .ch4rm | .ch2rm | .pfInline | .pfStag =>
      if k < lastColumn d + 1 ∧ chanCol g k = true then 2 * convective g d l k * chan g (·.coolant.tIn) else 0
    | _ => 0)

theorem addAmbient_length (off n : Nat) (T : K) (tcs x : List K) : (addAmbient off n T tcs x).length = x.length :=
  foldl_addAt_length _ _ _ _

theorem addAmbient_getD (off n : Nat) (T : K) (tcs x : List K) (j : Nat) (hj : j < x.length) :
    (addAmbient off n T tcs x).getD j 0 = x.getD j 0 + if off ≤ j ∧ j < off + n then T * tcs.getD (j - off) 0 else 0 := by
  unfold addAmbient
  rw [foldl_addAt_getD _ (fun i => off + i) _ _ _ hj]
  congr 1
  induction n with
  | zero => rw [if_neg (by omega)]; rfl
  | succ n ih =>
    rw [List.range_succ, List.filter_append, List.map_append, List.sum_append, ih]
    by_cases h : j = off + n
    · subst h
      rw [if_neg (by omega), if_pos (by omega), List.filter_cons_of_pos (by simp)]
      simp
    · rw [List.filter_cons_of_neg (by simp; omega)]
      by_cases h2 : off ≤ j ∧ j < off + n
      · rw [if_pos h2, if_pos (by omega)]; simp
      · rw [if_neg h2, if_neg (by omega)]; simp

theorem inletFold_length (g : TGrid K) (off : Nat) (v : Nat → K) (L : List Nat) (x : List K) :
    (L.foldl (fun x c => if chanCol g c then x.set (off + c) (v c) else x) x).length = x.length := by
  induction L generalizing x with
  | nil => rfl
  | cons a L ih => rw [List.foldl_cons, ih]; split <;> simp

theorem setInlet_length (g : TGrid K) (d : Dims K) (l off : Nat) (x : List K) : (setInlet g d l off x).length = x.length :=
  inletFold_length g off _ _ x

theorem setInlet_getD (g : TGrid K) (d : Dims K) (l off : Nat) (x : List K) (j : Nat) (hj : j < x.length) :
    (setInlet g d l off x).getD j 0 = if off ≤ j ∧ j < off + (lastColumn d + 1) ∧ chanCol g (j - off) = true then
      2 * convective g d l (j - off) * chan g (·.coolant.tIn) else x.getD j 0 := by
  unfold setInlet
  generalize lastColumn d + 1 = n
  induction n with
  | zero => rw [if_neg (by omega)]; rfl
  | succ n ih =>
    rw [List.range_succ, List.foldl_append, List.foldl_cons, List.foldl_nil]
    by_cases hc : chanCol g n = true
    · rw [if_pos hc]
      by_cases h : j = off + n
      · subst h
        rw [List.getD_eq_getElem?_getD, List.getElem?_set_self (by rw [inletFold_length]; exact hj)]
        rw [if_pos ⟨by omega, by omega, by rw [Nat.add_sub_cancel_left]; exact hc⟩, Nat.add_sub_cancel_left]; rfl
      · rw [List.getD_eq_getElem?_getD, List.getElem?_set_ne (by omega), ← List.getD_eq_getElem?_getD, ih]
        by_cases h2 : off ≤ j ∧ j < off + n ∧ chanCol g (j - off) = true
        · rw [if_pos h2, if_pos ⟨h2.1, by omega, h2.2.2⟩]
        · rw [if_neg h2, if_neg (fun h3 => h2 ⟨h3.1, by omega, h3.2.2⟩)]
    · rw [if_neg hc, ih]
      by_cases h2 : off ≤ j ∧ j < off + n ∧ chanCol g (j - off) = true
      · rw [if_pos h2, if_pos ⟨h2.1, by omega, h2.2.2⟩]
      · rw [if_neg h2, if_neg]
        rintro ⟨h3, h4, h5⟩
        by_cases h : j = off + n
        · subst h; rw [Nat.add_sub_cancel_left] at h5; exact hc h5
        · exact h2 ⟨h3, by omega, h5⟩

theorem layerAdd_length (g : TGrid K) (d : Dims K) (tt bt : List K) (l off : Nat) (es : List (FlpEl K)) (x : List K) :
    (layerAdd g d tt bt l off es x).length = x.length := by
  unfold layerAdd
  cases typeAt g l <;> simp [multiply_length, addAmbient_length, setInlet_length]

theorem weight_outside {d : Dims K} {es : List (FlpEl K)} (h : ∀ e ∈ es, ∀ p ∈ surface d e, p.1 < area d) {k : Nat} (hk : area d ≤ k) :
    (es.map fun e => next e * weightAt (surface d e) k).sum = 0 := by
  refine List.sum_eq_zero fun v hv => ?_
  obtain ⟨e, he, rfl⟩ := List.mem_map.mp hv
  unfold weightAt
  rw [List.filter_eq_nil_iff.mpr]
  · simp
  · intro p hp hpk
    have := h e he p hp
    rw [decide_eq_true_eq] at hpk
    omega

theorem layerAdd_getD (g : TGrid K) (d : Dims K) (tt bt : List K) (l off : Nat) (es : List (FlpEl K)) (x : List K)
    (hin : ∀ e ∈ es, ∀ p ∈ surface d e, p.1 < area d) (hA : lastColumn d + 1 ≤ area d)
    (hz : ∀ j, off ≤ j → x.getD j 0 = 0) (j : Nat) (hj : j < x.length) :
    (layerAdd g d tt bt l off es x).getD j 0 =
      if off ≤ j ∧ j < off + area d then layerTerm g d tt bt l es (j - off) else x.getD j 0 := by
  have hmul : ∀ x : List K, j < x.length → (multiply d off es (es.map next) x).getD j 0 =
      x.getD j 0 + if off ≤ j ∧ j < off + area d then (es.map fun e => next e * weightAt (surface d e) (j - off)).sum else 0 := by
    intro x hx
    rw [multiply_getD d off es _ x j hx, zip_map_self]
    congr 1
    by_cases h1 : off ≤ j
    · by_cases h2 : j < off + area d
      · rw [if_pos h1, if_pos ⟨h1, h2⟩]
      · rw [if_pos h1, if_neg (fun h => h2 h.2), weight_outside hin (by omega)]
    · rw [if_neg h1, if_neg (fun h => h1 h.1)]
  have hamb : ∀ T tcs, (addAmbient off (area d) T tcs x).getD j 0 =
      x.getD j 0 + if off ≤ j ∧ j < off + area d then T * tcs.getD (j - off) 0 else 0 := fun T tcs => addAmbient_getD _ _ _ _ _ _ hj
  have hamb' : ∀ T tcs, j < (addAmbient off (area d) T tcs x).length := fun T tcs => by rw [addAmbient_length]; exact hj
  have hset := setInlet_getD g d l off x j hj
  unfold layerAdd layerTerm
  by_cases hb : off ≤ j ∧ j < off + area d
  · have h0 := hz j hb.1
    simp only [if_pos hb] at hmul hamb ⊢
    have hs : (if off ≤ j ∧ j < off + (lastColumn d + 1) ∧ chanCol g (j - off) = true then
          2 * convective g d l (j - off) * chan g (·.coolant.tIn) else x.getD j 0) =
        if j - off < lastColumn d + 1 ∧ chanCol g (j - off) = true then 2 * convective g d l (j - off) * chan g (·.coolant.tIn) else 0 := by
      by_cases hc : j - off < lastColumn d + 1 ∧ chanCol g (j - off) = true
      · rw [if_pos hc, if_pos ⟨hb.1, by omega, hc.2⟩]
      · rw [if_neg hc, if_neg (fun h => hc ⟨by omega, h.2.2⟩), h0]
    rw [hs] at hset
    cases typeAt g l <;> simp only [isSrc, hmul _ hj, hmul _ (hamb' _ _), hamb, hset, h0, if_true, if_false, Bool.false_eq_true] <;> ring
  · simp only [if_neg hb] at hmul hamb ⊢
    have hs : ¬ (off ≤ j ∧ j < off + (lastColumn d + 1) ∧ chanCol g (j - off) = true) := fun h => hb ⟨h.1, by omega⟩
    rw [if_neg hs] at hset
    cases typeAt g l <;> simp only [hmul _ hj, hmul _ (hamb' _ _), hamb, hset, add_zero]

/-! ### All the layers -/

theorem layersAdd_length (g : TGrid K) (d : Dims K) (tt bt : List K) (fs : List (Option (List (FlpEl K)))) (l off : Nat) (x : List K) :
    (layersAdd g d tt bt l off fs x).length = x.length := by
  induction fs generalizing l off x with
  | nil => rfl
  | cons o fs ih => rw [layersAdd, ih, layerAdd_length]

theorem layersAdd_getD (g : TGrid K) (d : Dims K) (tt bt : List K) (hA : lastColumn d + 1 ≤ area d) :
    ∀ (fs : List (Option (List (FlpEl K)))) (l off : Nat) (x : List K), Inside d fs → off + fs.length * area d ≤ x.length →
    (∀ j, off ≤ j → x.getD j 0 = 0) →
    (∀ i k o, fs[i]? = some o → k < area d →
      (layersAdd g d tt bt l off fs x).getD (off + i * area d + k) 0 = layerTerm g d tt bt (l + i) (o.getD []) k) ∧
    (∀ j, j < off ∨ off + fs.length * area d ≤ j → (layersAdd g d tt bt l off fs x).getD j 0 = x.getD j 0) := by
  intro fs
  induction fs with
  | nil => intro l off x _ _ _; exact ⟨by simp, fun j _ => rfl⟩
  | cons o fs ih =>
    intro l off x hin hlen hz
    have hl : (o :: fs).length * area d = area d + fs.length * area d := by rw [List.length_cons]; ring
    rw [hl] at hlen
    have hL := layerAdd_getD g d tt bt l off (o.getD []) x (fun e he => hin o (by simp) e he) hA hz
    have hout : ∀ j, x.length ≤ j → (layerAdd g d tt bt l off (o.getD []) x).getD j 0 = x.getD j 0 := by
      intro j hj
      simp [List.getD_eq_getElem?_getD, List.getElem?_eq_none, layerAdd_length, hj]
    obtain ⟨h1, h2⟩ := ih (l + 1) (off + area d) (layerAdd g d tt bt l off (o.getD []) x) (fun o' ho' => hin o' (by simp [ho']))
      (by rw [layerAdd_length]; omega)
      (by
        intro j hj
        by_cases hjx : j < x.length
        · rw [hL j hjx, if_neg (by omega)]; exact hz j (by omega)
        · rw [hout j (by omega)]; exact hz j (by omega))
    refine ⟨?_, ?_⟩
    · intro i k o' hi hk
      rw [layersAdd]
      cases i with
      | zero =>
        simp only [List.getElem?_cons_zero, Option.some.injEq] at hi
        subst hi
        rw [h2 _ (Or.inl (by omega)), hL _ (by omega), if_pos (by omega)]
        simp
      | succ i =>
        have := h1 i k o' (by simpa using hi) hk
        rw [show off + (i + 1) * area d + k = off + area d + i * area d + k by ring, show l + (i + 1) = l + 1 + i by omega]
        exact this
    · intro j hj
      rw [layersAdd, h2 j (by rw [hl] at hj; omega)]
      by_cases hjx : j < x.length
      · rw [hL j hjx, if_neg (by rw [hl] at hj; omega)]
      · exact hout j (by omega)

/-! ### The inlets alone -/

theorem channelFrom_length (g : TGrid K) (d : Dims K) (n l off : Nat) (x : List K) : (channelFrom g d n l off x).length = x.length := by
  induction n generalizing l off x with
  | zero => rfl
  | succ n ih => rw [channelFrom]; cases typeAt g l <;> simp [ih, setInlet_length]

/-- A layer of coolant. -/
def isCh : LType → Bool
  | .ch4rm | .ch2rm | .pfInline | .pfStag => true
  | _ => false

theorem channelFrom_ch (g : TGrid K) (d : Dims K) (n l off : Nat) (x : List K) (h : isCh (typeAt g l) = true) :
    channelFrom g d (n + 1) l off x = channelFrom g d n (l + 1) (off + area d) (setInlet g d l off x) := by
  rw [channelFrom]
  revert h
  cases typeAt g l <;> first | (intro h; rfl) | (intro h; cases h)

theorem channelFrom_other (g : TGrid K) (d : Dims K) (n l off : Nat) (x : List K) (h : isCh (typeAt g l) = false) (h0 : typeAt g l ≠ .none) :
    channelFrom g d (n + 1) l off x = channelFrom g d n (l + 1) (off + area d) x := by
  rw [channelFrom]
  revert h h0
  cases typeAt g l <;> first | (intro h h0; rfl) | (intro h h0; exact absurd rfl h0) | (intro h h0; cases h)

theorem channelFrom_getD (g : TGrid K) (d : Dims K) (hA : lastColumn d + 1 ≤ area d) : ∀ (n l off : Nat) (x : List K),
    (∀ i, i < n → typeAt g (l + i) ≠ .none) → off + n * area d ≤ x.length →
    (∀ i k, i < n → k < area d → (channelFrom g d n l off x).getD (off + i * area d + k) 0 =
      if isCh (typeAt g (l + i)) = true ∧ k < lastColumn d + 1 ∧ chanCol g k = true then
        2 * convective g d (l + i) k * chan g (·.coolant.tIn) else x.getD (off + i * area d + k) 0) ∧
    (∀ j, j < off ∨ off + n * area d ≤ j → (channelFrom g d n l off x).getD j 0 = x.getD j 0) := by
  intro n
  induction n with
  | zero => intro l off x _ _; exact ⟨by omega, fun j _ => rfl⟩
  | succ n ih =>
    intro l off x hn hlen
    have hl : (n + 1) * area d = area d + n * area d := by ring
    rw [hl] at hlen
    have h0 := hn 0 (by omega)
    rw [Nat.add_zero] at h0
    obtain ⟨y, hy, hyl, hyd⟩ : ∃ y, channelFrom g d (n + 1) l off x = channelFrom g d n (l + 1) (off + area d) y ∧ y.length = x.length ∧
        ∀ j, j < x.length → y.getD j 0 =
          if isCh (typeAt g l) = true ∧ off ≤ j ∧ j < off + (lastColumn d + 1) ∧ chanCol g (j - off) = true then
            2 * convective g d l (j - off) * chan g (·.coolant.tIn) else x.getD j 0 := by
      by_cases hc : isCh (typeAt g l) = true
      · refine ⟨setInlet g d l off x, ?_, setInlet_length _ _ _ _ _, ?_⟩
        · exact channelFrom_ch g d n l off x hc
        · intro j hj
          rw [setInlet_getD g d l off x j hj]
          simp only [hc, true_and]
      · refine ⟨x, ?_, rfl, ?_⟩
        · exact channelFrom_other g d n l off x (by simpa using hc) h0
        · intro j hj; rw [if_neg (fun h => hc h.1)]
    have hout : ∀ j, x.length ≤ j → y.getD j 0 = x.getD j 0 := by
      intro j hj
      simp [List.getD_eq_getElem?_getD, List.getElem?_eq_none, hyl, hj]
    obtain ⟨h1, h2⟩ := ih (l + 1) (off + area d) y
      (fun i hi => by have := hn (i + 1) (by omega); rwa [show l + (i + 1) = l + 1 + i by omega] at this) (by omega)
    rw [hy]
    refine ⟨?_, ?_⟩
    · intro i k hi hk
      cases i with
      | zero =>
        rw [h2 _ (Or.inl (by omega)), hyd _ (by omega)]
        simp only [Nat.zero_mul, Nat.add_zero, Nat.add_sub_cancel_left]
        by_cases hc : isCh (typeAt g l) = true ∧ k < lastColumn d + 1 ∧ chanCol g k = true
        · rw [if_pos hc, if_pos ⟨hc.1, by omega, by omega, hc.2.2⟩]
        · rw [if_neg hc, if_neg (fun h => hc ⟨h.1, by omega, h.2.2.2⟩)]
      | succ i =>
        have := h1 i k (by omega) hk
        rw [show off + (i + 1) * area d + k = off + area d + i * area d + k by ring, show l + (i + 1) = l + 1 + i by omega, this]
        have e : off + area d + i * area d + k < x.length := by
          have : (i + 1) * area d ≤ n * area d := Nat.mul_le_mul_right _ (by omega)
          have e2 : (i + 1) * area d = i * area d + area d := by ring
          omega
        rw [hyd _ e]
        rw [if_neg (c := isCh (typeAt g l) = true ∧ _) (by omega)]
    · intro j hj
      rw [h2 j (by rw [hl] at hj; omega)]
      by_cases hjx : j < x.length
      · rw [hyd j hjx, if_neg (by rw [hl] at hj; omega)]
      · exact hout j (by omega)

end Verif.Emu
