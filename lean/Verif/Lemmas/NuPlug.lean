import Verif.Props.NuEnergy

/-! The cells of the spreader of a pluggable heat sink on a non-uniform grid, and what `pluggable_heatsink` does with them. -/

set_option linter.unusedSectionVars false
set_option linter.unusedSimpArgs false
set_option linter.unusedVariables false

namespace Verif.NU
open Verif.Dim Verif.TG Verif.Stk Verif.SM
open Verif.Emu (SimResult Succeeded)

variable {K : Type} [Field K] [LinearOrder K] [IsStrictOrderedRing K] {π : Type}
variable {d0 : Dims K} {decl : Option (Channel K)} {rs : List (Raw K (List (FEl K)))} {ns : List (NElem K)} {G : Grid K}

/-- Number of cells of the stack, without those of the spreader. -/
def stackCells (G : Grid K) : Nat := firstCell G G.d.nLayers

theorem spr_split (hf : FromStack d0 decl rs ns G) {sp : Spreader K} {m : Material K} (ht : G.g.top = some (.pluggable sp m)) :
    G.ls = G.ls.take G.d.nLayers ++ [subCells (chipRect G.d) G.d.nCols G.d.nRows G.d.nLayers noMat] := by
  obtain ⟨p, -, -, -, -, hl, -⟩ := hf.spec
  have h : G.ls = stackLayers G.d 0 (ns.map fixDiscr) ++ [subCells (chipRect G.d) G.d.nCols G.d.nRows G.d.nLayers noMat] := by
    rw [hl]; unfold layersOf spreaderLayer; simp only [hf.nLayers, ht]
  have h2 : G.ls.take G.d.nLayers = stackLayers G.d 0 (ns.map fixDiscr) := by
    rw [h, List.take_append_of_le_length (by rw [hf.nLayers]), List.take_of_length_le (by rw [hf.nLayers])]
  rw [h2]; exact h

theorem stack_len (G : Grid K) : (G.ls.take G.d.nLayers).flatten.length = stackCells G := by
  unfold stackCells firstCell; rw [List.length_flatten]

theorem spr_flat (hf : FromStack d0 decl rs ns G) {sp : Spreader K} {m : Material K} (ht : G.g.top = some (.pluggable sp m)) :
    G.cells = (G.ls.take G.d.nLayers).flatten ++ subCells (chipRect G.d) G.d.nCols G.d.nRows G.d.nLayers noMat := by
  unfold Grid.cells
  conv_lhs => rw [spr_split hf ht]
  simp

theorem sub_length (r : Rect K) (nx ny l : Nat) (m : Material K) : (subCells r nx ny l m).length = nx * ny := by simp [subCells]

theorem spr_len (hf : FromStack d0 decl rs ns G) {sp : Spreader K} {m : Material K} (ht : G.g.top = some (.pluggable sp m)) :
    G.cells.length = stackCells G + G.d.nRows * G.d.nCols := by
  rw [spr_flat hf ht, List.length_append, stack_len, sub_length, Nat.mul_comm]

theorem spr_below (hf : FromStack d0 decl rs ns G) {i : Nat} (hi : i < stackCells G) {c : Cell K} (hc : G.cells[i]? = some c) : c.layer < G.d.nLayers := by
  have h : G.cells = (G.ls.take G.d.nLayers).flatten ++ (G.ls.drop G.d.nLayers).flatten := by
    rw [← List.flatten_append, List.take_append_drop]; rfl
  rw [h, List.getElem?_append_left (by rw [stack_len]; exact hi)] at hc
  exact hf.layered.before _ _ (List.mem_of_getElem? hc)

theorem spr_at (hf : FromStack d0 decl rs ns G) {sp : Spreader K} {m : Material K} (ht : G.g.top = some (.pluggable sp m)) {k : Nat}
    (hk : k < G.d.nRows * G.d.nCols) : ∃ c, G.cells[stackCells G + k]? = some c ∧ c.layer = G.d.nLayers ∧
      c.x0 = G.d.chipLength / (G.d.nCols : K) * ((k % G.d.nCols : Nat) : K) ∧ c.x1 = G.d.chipLength / (G.d.nCols : K) * ((k % G.d.nCols + 1 : Nat) : K) ∧
      c.y0 = G.d.chipWidth / (G.d.nRows : K) * ((k / G.d.nCols : Nat) : K) ∧ c.y1 = G.d.chipWidth / (G.d.nRows : K) * ((k / G.d.nCols + 1 : Nat) : K) := by
  have hk' : k < G.d.nCols * G.d.nRows := by rw [Nat.mul_comm]; exact hk
  rw [spr_flat hf ht, ← stack_len, List.getElem?_append_right (by omega), Nat.add_sub_cancel_left]
  unfold subCells
  rw [List.getElem?_map, List.getElem?_range hk']
  refine ⟨_, rfl, rfl, ?_, ?_, ?_, ?_⟩ <;> simp [chipRect]

/-! ### The offset of the spreader -/

theorem offset_of {n k : Nat} (h : k ≤ n) (hn : n < W) : (n + W - k % W) % W = n - k := by
  have hk : k % W = k := Nat.mod_eq_of_lt (lt_of_le_of_lt h hn)
  rw [hk]
  have : n + W - k = (n - k) + W := by omega
  rw [this, Nat.add_mod_right, Nat.mod_eq_of_lt (by omega)]

theorem sprOffset_eq {sp : Spreader K} (h : sp.nCols * sp.nRows ≤ G.nCells) (hn : G.nCells < W) : sprOffset G sp = G.nCells - sp.nCols * sp.nRows :=
  offset_of h hn

theorem caps_plug (hf : FromStack d0 decl rs ns G) {sp : Spreader K} {m : Material K} (ht : G.g.top = some (.pluggable sp m)) :
    capsNU G = (G.cells.take (stackCells G)).map (fun c => capacityNU G.g G.d c) ++ List.replicate (sp.nRows * sp.nCols) (sprCapacity sp m) := by
  unfold capsNU
  rw [ht]
  simp only
  congr 2
  have h1 : G.ls.flatten = (G.ls.take G.d.nLayers).flatten ++ (G.ls.drop G.d.nLayers).flatten := by
    rw [← List.flatten_append, List.take_append_drop]
  have h2 : G.cells.take (stackCells G) = (G.ls.take G.d.nLayers).flatten := by
    unfold Grid.cells
    rw [h1, List.take_append_of_le_length (by rw [stack_len]), List.take_of_length_le (by rw [stack_len])]
  rw [h2, h1, List.takeWhile_append_of_pos fun c hc => decide_eq_true (hf.layered.before _ _ hc)]
  have h3 : ∀ xs : List (Cell K), (∀ c ∈ xs, ¬ c.layer < G.d.nLayers) → xs.takeWhile (fun c => decide (c.layer < G.d.nLayers)) = [] := by
    intro xs hx
    cases xs with
    | nil => rfl
    | cons x xs => rw [List.takeWhile_cons, if_neg (by simpa using hx x (by simp))]
  rw [h3 _ fun c hc => by have := hf.layered.after _ _ hc; omega, List.append_nil]

/-! ### The call of the plugin -/

/-- What a successful call of the plugin does. -/
theorem plugged_ok {s s1 : NSim K π} {o n : Nat} {r : π × Option (List K)} (h : plugged s o n r = (s1, true)) :
    ∃ p q, r = (p, some q) ∧ s1.sources = s.sources.take o ++ (List.range n).map (fun i => - q.getD i 0) ∧ s1.temps = s.temps ∧ s1.mat = s.mat ∧
      s1.caps = s.caps ∧ s1.G = s.G ∧ s1.conns = s.conns ∧ s1.plug = p := by
  obtain ⟨p, q⟩ := r
  cases q with
  | none => simp [plugged] at h
  | some q =>
    simp only [plugged, Prod.mk.injEq, and_true] at h
    subst h
    exact ⟨p, q, rfl, rfl, rfl, rfl, rfl, rfl, rfl, rfl⟩

theorem pluggable_call {cfg : NCfg K π} {s s1 : NSim K π} {sp : Spreader K} {m : Material K} {o : Nat} (ht : s.G.g.top = some (.pluggable sp m))
    (ho : sprOffset s.G sp = o) (h : pluggableNU cfg s = (s1, true)) :
    ∃ p q, cfg.plugin s.plug (s.temps.drop o) (s.sources.drop o) = (p, some q) ∧
      s1.sources = s.sources.take o ++ (List.range (sp.nCols * sp.nRows)).map (fun i => - q.getD i 0) ∧ s1.temps = s.temps ∧ s1.mat = s.mat ∧
      s1.caps = s.caps ∧ s1.G = s.G ∧ s1.conns = s.conns ∧ s1.plug = p := by
  unfold pluggableNU at h
  rw [ht] at h
  simp only [ho] at h
  exact plugged_ok h

/-- What a call of the plugin does to the sources, whether or not it succeeds. -/
theorem plugged_sources (s : NSim K π) (o n : Nat) (r : π × Option (List K)) :
    (plugged s o n r).1.sources = s.sources ∨ ∃ q : List K, (plugged s o n r).1.sources = s.sources.take o ++ (List.range n).map fun i => - q.getD i 0 := by
  obtain ⟨p, q⟩ := r
  cases q with
  | none => exact Or.inl rfl
  | some q => exact Or.inr ⟨q, rfl⟩

theorem finish_src (cfg : NCfg K π) (s : NSim K π) : (finishNU cfg s).2.sources = (pluggableNU cfg s).1.sources := by
  cases hpl : pluggableNU cfg s with
  | mk s1 ok =>
    cases ok with
    | false => rw [finish_plugin hpl]
    | true =>
      cases hs : cfg.solve s1.mat (vectorNU cfg s1) with
      | none => obtain ⟨b, hb⟩ := finish_solver hpl hs; rw [hb]
      | some x => rw [finish_ok hpl hs]

theorem finish_plug_sources {cfg : NCfg K π} {s : NSim K π} {sp : Spreader K} {m : Material K} {o : Nat} (ht : s.G.g.top = some (.pluggable sp m))
    (ho : sprOffset s.G sp = o) : (finishNU cfg s).2.sources = s.sources ∨
      ∃ q : List K, (finishNU cfg s).2.sources = s.sources.take o ++ (List.range (sp.nCols * sp.nRows)).map fun i => - q.getD i 0 := by
  rw [finish_src]
  unfold pluggableNU
  rw [ht]
  simp only [ho]
  exact plugged_sources _ _ _ _

/-- A successful second half of a step. -/
theorem finish_succeeded {cfg : NCfg K π} {s : NSim K π} (hs : Succeeded (finishNU cfg s).1) :
    ∃ s1 x, pluggableNU cfg s = (s1, true) ∧ cfg.solve s1.mat (vectorNU cfg s1) = some x ∧ (finishNU cfg s).2.temps = x ∧
      (finishNU cfg s).2.sources = s1.sources := by
  cases hpl : pluggableNU cfg s with
  | mk s1 ok =>
    cases ok with
    | false => rw [finish_plugin hpl] at hs; simp [Succeeded] at hs
    | true =>
      cases hx : cfg.solve s1.mat (vectorNU cfg s1) with
      | none => obtain ⟨b, hb⟩ := finish_solver hpl hx; rw [hb] at hs; simp [Succeeded] at hs
      | some x => exact ⟨s1, x, rfl, hx, by rw [finish_ok hpl hx], by rw [finish_ok hpl hx]⟩

/-! ### The number of temperatures -/

theorem finish_temps_len {cfg : NCfg K π} (hc : CorrectNU cfg) (s : NSim K π) (h : s.temps.length = s.G.cells.length) :
    (finishNU cfg s).2.temps.length = s.G.cells.length := by
  obtain ⟨k1, -, -, -, k5, -⟩ := pluggable_keeps cfg s
  cases hpl : pluggableNU cfg s with
  | mk s1 ok =>
    rw [hpl] at k1 k5
    simp only at k1 k5
    have hv : (vectorNU cfg s1).length = s.G.cells.length := by
      unfold vectorNU; rw [List.length_map, List.length_range, k1]; rfl
    cases ok with
    | false => rw [finish_plugin hpl]; show s1.temps.length = _; rw [k5]; exact h
    | true =>
      cases hx : cfg.solve s1.mat (vectorNU cfg s1) with
      | none =>
        have : finishNU cfg s = (.solverError, { s1 with temps := vectorNU cfg s1 }) := by unfold finishNU; simp only [hpl, hx, if_true]
        rw [this]; exact hv
      | some x => rw [finish_ok hpl hx]; show x.length = _; rw [(hc _ _ _ hx).1]; exact hv

theorem temps_length {cfg : NCfg K π} (hc : CorrectNU cfg) {s : NSim K π} (h : ReachableNU cfg d0 decl rs ns s) : s.temps.length = s.G.cells.length := by
  induction h with
  | @begun decl rs ns s hb =>
    rw [(begun_valid hb).2.2.1, List.length_replicate]
  | @call decl rs ns s hr o ih =>
    have hv := reachable_valid hr
    cases o with
    | step =>
      show (stepNU cfg s).2.temps.length = (stepNU cfg s).2.G.cells.length
      obtain ⟨-, -, ⟨fl, -, e2⟩, -⟩ := step_spec (cfg := cfg) hv
      rw [e2]
      show _ = s.G.cells.length
      by_cases htr : cfg.an.type = .transient
      · by_cases hb : s.time % cfg.an.slotLength = 0
        · obtain ⟨S, fl', u1, -, -, -⟩ := updateSources_spec hv
          have : stepNU cfg s = if ((elements s).all fun e => decide (e.powers ≠ [])) = true then
            finishNU cfg { s with sources := S, G := { s.G with flps := fl' } } else (.endOfSimulation, { s with sources := S, G := { s.G with flps := fl' } }) := by
            simp [stepNU, htr, slotDoneNU, hb, u1]
          rw [this]
          split
          · exact finish_temps_len hc _ ih
          · exact ih
        · have : stepNU cfg s = finishNU cfg s := by simp [stepNU, htr, slotDoneNU, hb]
          rw [this]; exact finish_temps_len hc _ ih
      · have : stepNU cfg s = (.wrongConfig, s) := by simp [stepNU, htr]
        rw [this]; exact ih
    | insert vs =>
      obtain ⟨f, e1, -⟩ := insert_spec hv vs
      show (insertSim s vs).1.temps.length = (insertSim s vs).1.G.cells.length
      rw [e1]; exact ih
    | reset =>
      show (List.replicate s.G.nCells cfg.an.initTemp).length = s.G.cells.length
      rw [List.length_replicate, (C54_cells_fit_arrays hv.grid).1]
  | @flow decl rs ns s hr f ih =>
    obtain ⟨e1, -, -, e4, -⟩ := flow_state cfg s f
    have h2 : (flowNU cfg s f).1.temps = s.temps := by
      unfold flowNU; simp only; split <;> rfl
    rw [h2, e1]; exact ih

end Verif.NU
