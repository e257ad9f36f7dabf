import Verif.Props.Output
import Verif.Lemmas.Heat
import Verif.Props.Steady

/-! # C50: what the final power map shows -/

set_option linter.unusedSectionVars false
set_option linter.unusedSimpArgs false
set_option linter.unusedVariables false

namespace Verif.Out
open Verif.Dim Verif.TG Verif.SM Verif.Flp Verif.Stk Verif.Emu

variable {K : Type} [Field K] [LinearOrder K] [IsStrictOrderedRing K] {π : Type}

/-! ### The source vector after an update that fails -/

theorem multiply_nil (d : Dims K) (off : Nat) (x : List K) : multiply d off [] [] x = x := rfl

theorem layerAdd_fail (g : TGrid K) (d : Dims K) (tt bt : List K) (off : Nat) (A B : List (Option (List (FlpEl K))))
    (f : List (FlpEl K)) (x : List K) (h2 : isSrc (typeAt g A.length) = true) (hp : ∃ e ∈ f, e.powers = []) :
    updateLayer g d tt bt A.length off (A ++ some f :: B) x = (A ++ some (popStart f) :: B, layerAdd g d tt bt A.length off [] x, false) := by
  have ht := allPow_false.mpr hp
  unfold updateLayer fillLayer layerAdd
  rw [flpAt_append]
  simp only [Option.getD_some, fillSources_eq, ht, set_append, List.map_nil, multiply_nil]
  cases h : typeAt g A.length <;> simp_all [isSrc]

theorem updateFrom_fail_sources (g : TGrid K) (d : Dims K) (tt bt : List K) : ∀ (B A : List (Option (List (FlpEl K)))) (off : Nat) (x : List K),
    FlpsOk g A.length B → (∃ e ∈ els B, e.powers = []) →
    ∃ i f, B[i]? = some (some f) ∧ (∃ e ∈ f, e.powers = []) ∧ (∀ j o, j < i → B[j]? = some o → ∀ e ∈ o.getD [], e.powers ≠ []) ∧
      (updateFrom g d tt bt B.length A.length off (A ++ B) x).2.1 = layersAdd g d tt bt A.length off (B.take i ++ [some []]) x := by
  intro B
  induction B with
  | nil => intro A off x _ h; simp [els] at h
  | cons o B ih =>
    intro A off x hok hp
    obtain ⟨h1, h2⟩ := hok 0 o (by simp)
    have hc : els (o :: B) = o.getD [] ++ els B := by simp [els]
    by_cases ho : ∃ e ∈ o.getD [], e.powers = []
    · cases o with
      | none => simp at ho
      | some f =>
        have := layerAdd_fail g d tt bt off A B f x (by simpa using h2) ho
        refine ⟨0, f, by simp, ho, by simp, ?_⟩
        simp [List.length_cons, updateFrom, this, layersAdd]
    · have ho' : ∀ e ∈ o.getD [], e.powers ≠ [] := fun e he h => ho ⟨e, he, h⟩
      have hB : ∃ e ∈ els B, e.powers = [] := by
        obtain ⟨e, he, h⟩ := hp
        rw [hc, List.mem_append] at he
        rcases he with he | he
        · exact absurd h (ho' e he)
        · exact ⟨e, he, h⟩
      have := updateLayer_ok g d tt bt off A B o x h1 h2 ho'
      obtain ⟨i, f, e1, e2, e3, e4⟩ := ih (A ++ [o.map fun f => f.map pop]) (off + area d) (layerAdd g d tt bt A.length off (o.getD []) x)
        (by rw [List.length_append]; exact hok.tail) hB
      refine ⟨i + 1, f, by simpa using e1, e2, ?_, ?_⟩
      · intro j o' hj hjo
        cases j with
        | zero => simp at hjo; subst hjo; exact ho'
        | succ j => exact e3 j o' (by omega) (by simpa using hjo)
      · simp only [List.length_cons, updateFrom, this, if_true, List.take_succ_cons, List.cons_append, layersAdd]
        simpa using e4

/-- **C50** The source vector, which is what a power map shows, after the call that ends a transient simulation because the powers are used
up. Let `f` be the lowest layer with an element without values. The layers below `f` show powers of a slot that is never simulated,
layer `f` only its heat sink, if it has one, and the layers above nothing. -/
theorem C50_after_the_end {cfg : Cfg K π} {s : Sim K π} (h : Reachable cfg s) {raws : Nat → List (RawEl K)} (hf : ReadFrom cfg.d raws s)
    (he : (emulateStep cfg s).1 = .endOfSimulation) :
    ∃ f < cfg.d.nLayers, (∃ e ∈ floorplan s f, e.powers = []) ∧ (∀ l, l < f → ∀ e ∈ floorplan s l, e.powers ≠ []) ∧
      ∀ l r c, l < cfg.d.nLayers → r < cfg.d.nRows → c < cfg.d.nCols →
        sourceAt cfg.d (emulateStep cfg s).2 l r c =
          if l < f then powerIn cfg.d (raws l) (floorplan s l) r c + sinkTerm s.g cfg.d l r c + inletTerm s.g cfg.d l r c
          else if l = f then sinkTerm s.g cfg.d l r c else 0 := by
  have hg := reachable_good h
  have hr := hg.ready
  obtain ⟨-, -, -, hc⟩ := step_spec (cfg := cfg) hr
  rcases hc with ⟨h5, -⟩ | ⟨-, ht, hb, hp, -⟩ | ⟨-, -, -, ⟨h5, -⟩ | ⟨h5, -⟩⟩
  · rw [h5] at he; simp at he
  · obtain ⟨i, f, e1, e2, e3, e4⟩ := updateFrom_fail_sources s.g cfg.d s.topTcs s.botTcs s.flps [] 0 (List.replicate cfg.d.nCells 0) hr.ok hp
    simp only [List.length_nil, List.nil_append, hr.len] at e4
    have hlen : s.flps.length = cfg.d.nLayers := hr.len.trans hg.wf.nl
    have hi : i < s.flps.length := (List.getElem?_eq_some_iff.mp e1).1
    have hfl : ∀ l, floorplan s l = (s.flps[l]?.getD none).getD [] := by
      intro l; unfold floorplan; rw [List.getD_eq_getElem?_getD]
    have hsrc : (emulateStep cfg s).2.sources = layersAdd s.g cfg.d s.topTcs s.botTcs 0 0 (s.flps.take i ++ [some []]) (List.replicate cfg.d.nCells 0) := by
      obtain ⟨fs, x, e5, -⟩ := updateSource_fail hr cfg.d hp
      have e6 : (updateSourceVector cfg.d s).1.sources = x := by rw [e5]
      have e7 : (updateSourceVector cfg.d s).1.sources = _ := e4
      have e8 : (emulateStep cfg s).2.sources = x := by
        simp [emulateStep, ht, slotCompleted, hb, e5]
      rw [e8, ← e6, e7]
    have hz : ∀ j, 0 ≤ j → (List.replicate cfg.d.nCells (0 : K)).getD j 0 = 0 := by
      intro j _; simp [List.getD_eq_getElem?_getD, List.getElem?_replicate]; split <;> rfl
    have hin := hf.inside hg
    have hA := wf_area hg.wf
    have hin1 : Inside cfg.d (s.flps.take i ++ [some []]) := by
      intro o ho
      rcases List.mem_append.mp ho with ho | ho
      · exact hin o (List.mem_of_mem_take ho)
      · simp at ho; subst ho; simp
    -- the same layers, with no element in layer `i`
    let fs2 := s.flps.take i ++ some [] :: s.flps.drop (i + 1)
    have hin2 : Inside cfg.d fs2 := by
      intro o ho
      rcases List.mem_append.mp ho with ho | ho
      · exact hin o (List.mem_of_mem_take ho)
      · rcases List.mem_cons.mp ho with ho | ho
        · subst ho; simp
        · exact hin o (List.mem_of_mem_drop ho)
    have hget2 : ∀ j, fs2[j]? = if j = i then some (some []) else s.flps[j]? := by
      intro j
      have hl : (s.flps.take i).length = i := by rw [List.length_take]; omega
      rcases Nat.lt_trichotomy j i with hj | hj | hj
      · rw [if_neg (by omega), List.getElem?_append_left (by omega), List.getElem?_take_of_lt hj]
      · subst hj; rw [if_pos rfl, List.getElem?_append_right (by omega), hl, Nat.sub_self]; rfl
      · rw [if_neg (by omega), List.getElem?_append_right (by omega), hl, show j - i = (j - i - 1) + 1 by omega, List.getElem?_cons_succ,
          List.getElem?_drop]
        congr 1; omega
    have hlen2 : fs2.length = s.flps.length := by
      show (s.flps.take i ++ some [] :: s.flps.drop (i + 1)).length = _
      simp; omega
    have hg2 : Good cfg { s with flps := fs2 } := by
      refine ⟨⟨hlen2.trans hr.len, ?_⟩, hg.wf, hg.mat, hg.caps, hg.top, hg.bot, hg.len⟩
      intro j o hj
      have hj' : fs2[j]? = some o := hj
      rw [hget2] at hj'
      by_cases hji : j = i
      · subst hji
        rw [if_pos rfl] at hj'
        obtain ⟨a, b⟩ := hr.ok j _ e1
        cases hj'
        exact ⟨a, b⟩
      · rw [if_neg hji] at hj'
        exact hr.ok j o hj'
    have hfl2 : ∀ l, floorplan { s with flps := fs2 } l = if l = i then [] else floorplan s l := by
      intro l
      unfold floorplan
      simp only [List.getD_eq_getElem?_getD]
      rw [hget2]
      by_cases hl : l = i <;> simp [hl]
    refine ⟨i, by omega, by rw [hfl, e1]; exact e2, ?_, ?_⟩
    · intro l hl e hel
      rw [hfl] at hel
      have : l < s.flps.length := by omega
      rw [List.getElem?_eq_getElem this] at hel
      exact e3 l _ hl (List.getElem?_eq_getElem this) e hel
    · intro l r c hl hrr hcc
      obtain ⟨o1, o2, -, o4⟩ := wf_off hg.wf hl hrr hcc
      obtain ⟨k1, k2⟩ := layersAdd_getD s.g cfg.d s.topTcs s.botTcs (wf_colArea hg.wf) _ 0 0 (List.replicate cfg.d.nCells 0) hin1
        (by
          rw [hA, List.length_replicate, Nat.zero_add]
          refine le_trans (Nat.mul_le_mul_right _ ?_) (wf_chip hg.wf).1
          simp; omega) hz
      obtain ⟨m1, -⟩ := layersAdd_getD s.g cfg.d s.topTcs s.botTcs (wf_colArea hg.wf) fs2 0 0 (List.replicate cfg.d.nCells 0) hin2
        (by rw [hlen2, hlen, hA, List.length_replicate, Nat.zero_add]; exact (wf_chip hg.wf).1) hz
      have hlt : (s.flps.take i).length = i := by rw [List.length_take]; omega
      unfold sourceAt
      rw [hsrc]
      by_cases hli : l ≤ i
      · have g1 : (s.flps.take i ++ [some []])[l]? = fs2[l]? := by
          rw [hget2]
          rcases Nat.lt_or_ge l i with hj | hj
          · rw [if_neg (by omega), List.getElem?_append_left (by omega), List.getElem?_take_of_lt hj]
          · have : l = i := by omega
            subst this
            rw [if_pos rfl, List.getElem?_append_right (by omega), hlt, Nat.sub_self]; rfl
        have g2 : fs2[l]? = some (fs2.getD l none) := by
          rw [List.getD_eq_getElem?_getD, List.getElem?_eq_getElem (by omega)]; rfl
        have v1 := k1 l (r * cfg.d.nCols + c) _ (g1.trans g2) o2
        have v2 := m1 l (r * cfg.d.nCols + c) _ g2 o2
        have v3 := slotSources_at hg2 hin2 hl hrr hcc
        have v4 : (slotSources cfg.d { s with flps := fs2 }).getD (offInStack cfg.d l r c) 0 =
            (layersAdd s.g cfg.d s.topTcs s.botTcs 0 0 fs2 (List.replicate cfg.d.nCells 0)).getD (offInStack cfg.d l r c) 0 := rfl
        rw [Nat.zero_add, ← o1] at v1 v2
        rw [v1, ← v2, ← v4, v3, hfl2]
        rcases Nat.lt_or_ge l i with hj | hj
        · rw [if_neg (by omega), if_pos hj]
          congr 2
          have hWa : cfg.d.nRows * cfg.d.nCols < W := by
            obtain ⟨a, -, b⟩ := wf_chip hg.wf
            have : cfg.d.nRows * cfg.d.nCols ≤ chip cfg.d := Nat.le_mul_of_pos_left _ hg.wf.L1
            omega
          exact (zip_weights hf.grid hWa (hf.from_ l hl) (hf.inGrid l hl)).1 r c hrr hcc
        · have : l = i := by omega
          subst this
          rw [if_pos rfl, if_neg (by omega), if_pos rfl]
          have hinl : inletTerm s.g cfg.d l r c = 0 := by
            unfold inletTerm
            rw [if_neg]
            intro hh
            have h1 := ((coolant_iff hg.wf hl).mp hh.2).1
            have h2 := (hr.ok l _ e1).2
            rw [Nat.zero_add] at h2
            revert h1 h2
            cases typeAt s.g l <;> simp [isCh, isSrc]
          show List.sum _ + sinkTerm s.g cfg.d l r c + inletTerm s.g cfg.d l r c = _
          rw [hinl]; simp
      · rw [if_neg (by omega), if_neg (by omega), k2 _ (.inr ?_), hz _ (Nat.zero_le _)]
        rw [o1, List.length_append, hlt, List.length_singleton, Nat.zero_add]
        have : (i + 1) * area cfg.d ≤ l * area cfg.d := Nat.mul_le_mul_right _ (by omega)
        omega
  · rw [h5] at he; simp at he
  · rw [he] at h5; simp [Succeeded] at h5

/-! ### Steady simulations -/

theorem steady_sources {s1 : Sim K π} (s : Sim K π) (b : List K) (m : Option (List K)) (q : SimResult × Sim K π)
    (he : q = (.solverError, s) ∨ q = (.endOfSimulation, s1) ∨
      q = (match m with
        | none => (.solverError, { s1 with temps := b })
        | some x => (.endOfSimulation, { s1 with temps := x }))) (hq : q.1 = .endOfSimulation) : q.2.sources = s1.sources := by
  rcases he with he | he | he
  · rw [he] at hq; simp at hq
  · rw [he]
  · cases m <;> rw [he]

/-- **C50, steady simulations** The final power map of a steady simulation that found a value for every element shows, in each cell of the
stack, the power dissipated in the cell, with the terms of the ambient and of the coolant inlet. -/
theorem C50_steady_partial {cfg : Cfg K π} {s : Sim K π} (h : Reachable cfg s) {raws : Nat → List (RawEl K)} (hf : ReadFrom cfg.d raws s)
    (ht : cfg.an.type = .steady) (hp : ∀ e ∈ elements s, e.powers ≠ []) (he : (emulateSteady cfg s).1 = .endOfSimulation)
    {l r c : Nat} (hl : l < cfg.d.nLayers) (hr : r < cfg.d.nRows) (hc : c < cfg.d.nCols) :
    sourceAt cfg.d (emulateSteady cfg s).2 l r c =
      powerIn cfg.d (raws l) (floorplan s l) r c + sinkTerm s.g cfg.d l r c + inletTerm s.g cfg.d l r c := by
  have hg := reachable_good h
  have hu := updateSource_ok hg.ready cfg.d hp
  have h1 : (emulateSteady cfg s).2.sources = slotSources cfg.d s := by
    rw [steady_sources (s1 := (updateSourceVector cfg.d s).1) s (fillSystemVectorSteady cfg (updateSourceVector cfg.d s).1)
      (cfg.solve (updateSourceVector cfg.d s).1.mat (fillSystemVectorSteady cfg (updateSourceVector cfg.d s).1)) (emulateSteady cfg s)
      (steady_forms s ht) he, hu]
  unfold sourceAt
  rw [h1, slotSources_at hg (hf.inside hg) hl hr hc]
  congr 2
  have hWa : cfg.d.nRows * cfg.d.nCols < W := by
    obtain ⟨a, -, b⟩ := wf_chip hg.wf
    have : cfg.d.nRows * cfg.d.nCols ≤ chip cfg.d := Nat.le_mul_of_pos_left _ hg.wf.L1
    omega
  exact (zip_weights hf.grid hWa (hf.from_ l hl) (hf.inGrid l hl)).1 r c hr hc

/-! ### The final map of a transient simulation -/

/-- Two elements in the top die. -/
def topRaws : Nat → List (RawEl ℚ)
  | 3 => [okRaw1, okRaw2]
  | _ => []

theorem top_readFrom {e1 e2 : FlpEl ℚ} (h : List.Forall₂ (From chipD) [okRaw1, okRaw2] [e1, e2]) (t : AType) (L : Nat) :
    ReadFrom (chipCfg t L).d topRaws (chipSim t L [e1, e2] []) := by
  refine ⟨chipGrid, ?_, ?_⟩
  · intro l hl
    have hl : l < 5 := hl
    interval_cases l
    · exact .nil
    · exact .nil
    · exact .nil
    · exact h
    · exact .nil
  · intro l hl raw hr e he
    have hl : l < 5 := hl
    interval_cases l
    · simp [topRaws] at hr
    · simp [topRaws] at hr
    · simp [topRaws] at hr
    · exact chip_inGrid raw hr e he
    · simp [topRaws] at hr

def mapPoints : List (Point ℚ) := [⟨.slot, .pmap 3, .none, "slot.txt"⟩, ⟨.final, .pmap 3, .none, "final.txt"⟩]

theorem cell_source {cfg : Cfg K π} {s s1 : Sim K π} (hg : Good cfg s) {l r c : Nat} (hl : l < cfg.d.nLayers) (hr : r < cfg.d.nRows)
    (hc : c < cfg.d.nCols) : cellOf cfg.d s1.sources l r c = sourceAt cfg.d s1 l r c := by
  unfold cellOf sourceAt
  rw [(wf_off hg.wf hl hr hc).1, wf_area hg.wf]
  congr 1; omega

/-- **C50 is violated** in transient simulations: two elements dissipate 5 and 7 W in the only slot. The power map of that slot shows them;
the final power map of the same layer shows no power at all. -/
theorem C50_last_slot_violated : ∃ (e1 e2 : FlpEl ℚ) (log : Log ℚ) (s' : Sim ℚ Unit) (m f : List (List ℚ)),
    e1.powers = [5] ∧ e2.powers = [7] ∧
    Emulated (fun _ => true) (addPoints mapPoints) (chipCfg .transient 1) (chipSim .transient 1 [e1, e2] []) log s' ∧
    contents log "slot.txt" = [.map m] ∧ contents log "final.txt" = [.map f] ∧
    (∃ row ∈ m, ∃ x ∈ row, x ≠ 0) ∧ ∀ row ∈ f, ∀ x ∈ row, x = 0 := by
  obtain ⟨e1, e2, hfr, p1, p2, -⟩ := chip_parse [5] [7]
  have hst := chip_started .transient 1 [e1, e2] []
  have hre := chip_reachable .transient 1 [e1, e2] []
  have hgd := reachable_good hre
  have hrf := top_readFrom hfr .transient 1
  have hel : elements (chipSim .transient 1 [e1, e2] []) = [e1, e2] := by rw [chip_elements]; rfl
  have htr : traces (chipSim .transient 1 [e1, e2] []) = [[5], [7]] := by simp [traces, hel, p1, p2]
  have hL : (chipCfg .transient 1).an.slotLength = 1 := rfl
  have h1 : Succeeded (emulateStep (chipCfg .transient 1) (chipSim .transient 1 [e1, e2] [])).1 :=
    chip_step hgd rfl (by
      intro _ e he; rw [hel] at he; simp at he
      rcases he with rfl | rfl
      · rw [p1]; simp
      · rw [p2]; simp)
  obtain ⟨log, s', he⟩ := C32_simulation_ends (canOpen := fun _ => true) (o := addPoints mapPoints) hst rfl (by decide) (by rw [hel]; simp)
  have hs : ∀ p ∈ mapPoints, Sound p := by
    intro p hp
    simp only [mapPoints, List.mem_cons, List.not_mem_nil, or_false] at hp
    rcases hp with rfl | rfl <;> simp [Sound]
  have hW : ∃ t ∈ traces (chipSim .transient 1 [e1, e2] []), t.length * (chipCfg .transient 1).an.slotLength < 2 ^ 32 := by
    rw [htr]; exact ⟨[5], by simp, by rw [hL]; simp⟩
  obtain ⟨n, a, b, c, e⟩ := C32_records_of_a_point hst rfl (by decide) hs (fun _ _ => Or.inr rfl) hW he
  have hn1 : n ≤ 1 := by
    have := run_bound (cfg := chipCfg .transient 1) rfl (by decide) (started_spec hst).1 rfl a (show [5] ∈ traces _ by rw [htr]; simp)
      (by rw [hL, W_eq]; simp)
    rw [hL] at this; simpa using this
  have hn : n = 1 := by
    by_contra hne
    have hn0 : n = 0 := by omega
    subst hn0
    have e0 : after (chipCfg .transient 1) (chipSim .transient 1 [e1, e2] []) 0 = chipSim .transient 1 [e1, e2] [] := rfl
    rw [e0] at b
    rcases b with b | b <;> rw [b] at h1 <;> simp [Succeeded] at h1
  subst hn
  have hs1 : after (chipCfg .transient 1) (chipSim .transient 1 [e1, e2] []) 1 =
      (emulateStep (chipCfg .transient 1) (chipSim .transient 1 [e1, e2] [])).2 := rfl
  have hre1 : Reachable (chipCfg .transient 1) (after (chipCfg .transient 1) (chipSim .transient 1 [e1, e2] []) 1) :=
    ⟨_, _, [.step], hst, rfl⟩
  have hrf1 : ReadFrom (chipCfg .transient 1).d topRaws (after (chipCfg .transient 1) (chipSim .transient 1 [e1, e2] []) 1) :=
    readFrom_run hrf [.step]
  have hgd1 := reachable_good hre1
  have hg1 : (after (chipCfg .transient 1) (chipSim .transient 1 [e1, e2] []) 1).g = chipG := (step_spec (cfg := chipCfg .transient 1) hgd.ready).2.1
  have hsteps : ∀ r ∈ (steps (chipCfg .transient 1) 1 (chipSim .transient 1 [e1, e2] [])).1, Succeeded r := by
    intro r hr
    have : (steps (chipCfg .transient 1) 1 (chipSim .transient 1 [e1, e2] [])).1 =
      [(emulateStep (chipCfg .transient 1) (chipSim .transient 1 [e1, e2] [])).1] := rfl
    rw [this, List.mem_singleton] at hr
    rw [hr]; exact h1
  -- the first slot
  have hsrc : ∀ r c, r < chipD.nRows → c < chipD.nCols →
      sourceAt chipD (after (chipCfg .transient 1) (chipSim .transient 1 [e1, e2] []) 1) 3 r c = powerIn chipD [okRaw1, okRaw2] [e1, e2] r c := by
    intro r c hr hc
    have := C42_sources_of_the_slot hre (Nat.dvd_zero 1) hrf 1 le_rfl le_rfl (by simp [chipSim]) hsteps (show 3 < chipD.nLayers by decide) hr hc
    have z1 : sinkTerm (chipSim .transient 1 [e1, e2] []).g (chipCfg .transient 1).d 3 r c = 0 := rfl
    have z2 : inletTerm (chipSim .transient 1 [e1, e2] []).g (chipCfg .transient 1).d 3 r c = 0 := by
      unfold inletTerm
      rw [if_neg]
      intro hh
      have := ((coolant_iff hgd.wf (show 3 < chipD.nLayers by decide)).mp hh.2).1
      exact absurd (show isCh (typeAt chipG 3) = true from this) (by decide)
    rw [z1, z2, add_zero, add_zero] at this
    exact this
  obtain ⟨r0, hr0, c0, hc0, hne⟩ : ∃ r < chipD.nRows, ∃ c < chipD.nCols,
      sourceAt chipD (after (chipCfg .transient 1) (chipSim .transient 1 [e1, e2] []) 1) 3 r c ≠ 0 := by
    by_contra hcon
    push Not at hcon
    have hsum := sum_powerIn chipGrid hfr chip_inGrid
    rw [Finset.sum_eq_zero] at hsum
    · simp [next, p1, p2] at hsum
      norm_num at hsum
    · intro r hr
      refine Finset.sum_eq_zero fun c hc => ?_
      rw [Finset.mem_range] at hr hc
      rw [← hsrc r c hr hc]
      exact hcon r hr c hc
  -- the call that ends the simulation
  have hend : (emulateStep (chipCfg .transient 1) (after (chipCfg .transient 1) (chipSim .transient 1 [e1, e2] []) 1)).1 = .endOfSimulation := by
    rcases b with b | b
    · exact b
    · exfalso
      obtain ⟨-, -, -, hc⟩ := step_spec (cfg := chipCfg .transient 1) hgd1.ready
      rcases hc with ⟨-, h2, -⟩ | ⟨h2, -⟩ | ⟨-, h2, -⟩
      · exact h2 rfl
      · rw [h2] at b; simp at b
      · have h3 := h2 (Nat.mod_one _)
        obtain ⟨-, -, -, hc⟩ := step_spec (cfg := chipCfg .transient 1) hgd.ready
        rcases hc with ⟨-, h2, -⟩ | ⟨h2, -⟩ | ⟨-, -, h2, -⟩
        · exact h2 rfl
        · rw [h2] at h1; simp [Succeeded] at h1
        · rw [hL, if_pos (Nat.mod_one _), hel] at h2
          have := h3 (pop e1) (by rw [hs1, h2]; simp)
          simp [pop, p1] at this
  have hs' : s' = (emulateStep (chipCfg .transient 1) (after (chipCfg .transient 1) (chipSim .transient 1 [e1, e2] []) 1)).2 := by
    rw [c]; unfold after; rw [run_snoc_step]
  have hfin : ∀ r c, r < chipD.nRows → c < chipD.nCols → sourceAt chipD s' 3 r c = 0 := by
    intro r c hr hc
    obtain ⟨f, hf, ⟨e, hef, -⟩, -, hv⟩ := C50_after_the_end hre1 hrf1 hend
    have hf3 : f = 3 := by
      have hfa := hrf1.from_ f hf
      have hf5 : f < 5 := hf
      interval_cases f
      · rw [List.forall₂_nil_left_iff.mp hfa] at hef; simp at hef
      · rw [List.forall₂_nil_left_iff.mp hfa] at hef; simp at hef
      · rw [List.forall₂_nil_left_iff.mp hfa] at hef; simp at hef
      · rfl
      · rw [List.forall₂_nil_left_iff.mp hfa] at hef; simp at hef
    subst hf3
    have := hv 3 r c (by decide) hr hc
    rw [if_neg (by omega), if_pos rfl, ← hs', hg1] at this
    exact this.trans rfl
  -- the records
  have own : ∀ p ∈ mapPoints, Own mapPoints p ∧ Prints p := by
    intro p hp
    simp only [mapPoints, List.mem_cons, List.not_mem_nil, or_false] at hp
    rcases hp with rfl | rfl <;> simp [Own, Prints, Sound, mapPoints]
  have q1 := (e _ (own ⟨.slot, .pmap 3, .none, "slot.txt"⟩ (by simp [mapPoints])).1 (own _ (by simp [mapPoints])).2).2.1 rfl
  have q2 := (e _ (own ⟨.final, .pmap 3, .none, "final.txt"⟩ (by simp [mapPoints])).1 (own _ (by simp [mapPoints])).2).2.2 rfl
  have hre' : Reachable (chipCfg .transient 1) s' := by rw [c]; exact ⟨_, _, _, hst, rfl⟩
  have k1 := C32_what_a_record_shows hre1 ((((0 + 1) * 1 : Nat) : ℚ) * (chipCfg .transient 1).an.stepTime)
    ⟨.slot, .pmap 3, .none, "slot.txt"⟩ (by decide : 3 < chipD.nLayers)
  have k2 := C32_what_a_record_shows hre' (((1 : Nat) : ℚ) * (chipCfg .transient 1).an.stepTime)
    ⟨.final, .pmap 3, .none, "final.txt"⟩ (by decide : 3 < chipD.nLayers)
  have q1' : (contents log "slot.txt").map some = [recordOf (chipCfg .transient 1)
      (after (chipCfg .transient 1) (chipSim .transient 1 [e1, e2] []) 1) ((((0 + 1) * 1 : Nat) : ℚ) * (chipCfg .transient 1).an.stepTime)
      ⟨.slot, .pmap 3, .none, "slot.txt"⟩] := q1
  rw [k1] at q1'
  rw [k2] at q2
  have toOne : ∀ {l : List (Record ℚ)} {x : Record ℚ}, l.map some = [some x] → l = [x] := by
    intro l x h
    match l, h with
    | [y], h => simpa using h
  refine ⟨e1, e2, log, s', _, _, p1, p2, he, toOne q1', toOne q2, ?_, ?_⟩
  · refine ⟨_, List.mem_map.mpr ⟨r0, List.mem_range.mpr hr0, rfl⟩, _, List.mem_map.mpr ⟨c0, List.mem_range.mpr hc0, rfl⟩, ?_⟩
    rw [cell_source hgd (show 3 < (chipCfg .transient 1).d.nLayers by decide) hr0 hc0]
    exact hne
  · intro row hrow x hx
    obtain ⟨r, hr, rfl⟩ := List.mem_map.mp hrow
    obtain ⟨c, hc, rfl⟩ := List.mem_map.mp hx
    rw [cell_source hgd (show 3 < (chipCfg .transient 1).d.nLayers by decide) (List.mem_range.mp hr) (List.mem_range.mp hc)]
    exact hfin r c (List.mem_range.mp hr) (List.mem_range.mp hc)

/-- Non-vacuity of `C50_steady_partial`. -/
example : ∃ e1 e2 : FlpEl ℚ, e1.powers = [5] ∧ e2.powers = [7] ∧
    sourceAt chipD (emulateSteady (chipCfg .steady 1) (chipSim .steady 1 [] [e1, e2])).2 0 1 3 =
      powerIn chipD [okRaw1, okRaw2] [e1, e2] 1 3 + sinkTerm chipG chipD 0 1 3 + inletTerm chipG chipD 0 1 3 := by
  obtain ⟨e1, e2, h, p1, p2, -⟩ := chip_parse [5] [7]
  refine ⟨e1, e2, p1, p2, ?_⟩
  exact C50_steady_partial (chip_reachable .steady 1 [] [e1, e2]) (chip_readFrom' h .steady 1) rfl (by
    rw [chip_elements]; intro e he; simp at he; rcases he with rfl | rfl
    · rw [p1]; simp
    · rw [p2]; simp) (chip_steady 1 e1 e2 (by rw [p1]; simp) (by rw [p2]; simp)) (by decide : 0 < chipD.nLayers)
    (by decide : 1 < chipD.nRows) (by decide : 3 < chipD.nCols)

end Verif.Out
