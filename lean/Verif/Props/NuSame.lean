import Verif.Props.NuCompare

/-! # C74: two stacks that differ in their power values and ambient temperatures have the same grid -/

set_option linter.unusedSectionVars false
set_option linter.unusedSimpArgs false
set_option linter.unusedVariables false

namespace Verif.NU
open Verif.Dim Verif.TG Verif.Stk Verif.SM
open Verif.Emu (withAmb)

variable {K : Type} [Field K] [LinearOrder K] [IsStrictOrderedRing K]

theorem count_powerless (d : Dims K) (n : NElem K) : countElem d (powerless n) = countElem d n := by
  unfold powerless countElem
  cases h : n.elem.body <;> simp [h, Function.comp_def]

theorem fix_powerless (n : NElem K) : fixDiscr (powerless n) = powerless (fixDiscr n) := by
  obtain ⟨⟨id, b, o⟩, dx, dy⟩ := n
  cases b with
  | die b =>
    simp only [powerless, fixDiscr, List.map_map]
    congr 5
    funext e
    simp only [Function.comp, fixEl]
    split_ifs <;> rfl
  | layer l => rfl
  | channel c => rfl

theorem elemLayers_powerless (d : Dims K) (cur : Nat) (n : NElem K) : elemLayers d cur (powerless n) = elemLayers d cur n := by
  obtain ⟨⟨id, b, o⟩, dx, dy⟩ := n
  cases b with
  | die b =>
    simp only [powerless, elemLayers]
    congr 1
    funext li
    simp only [dieLayer, List.flatMap_map]
  | layer l => rfl
  | channel c => rfl

theorem stackLayers_powerless (d : Dims K) : ∀ (ns : List (NElem K)) (cur : Nat), stackLayers d cur (ns.map powerless) = stackLayers d cur ns
  | [], _ => rfl
  | n :: ns, cur => by rw [List.map_cons, stackLayers, stackLayers, elemLayers_powerless, stackLayers_powerless d ns]

theorem fillGrid_powerless (n : Nat) (ns : List (NElem K)) (top : Option (TopSink K)) (bottom : Option (Sink K)) :
    fillGrid n ((ns.map powerless).map (·.elem)) top bottom = fillGrid n (ns.map (·.elem)) top bottom := by
  have a1 : ∀ (ts : List LType) (n : NElem K), writeTypes ts (powerless n).elem = writeTypes ts n.elem := by
    intro ts n; unfold powerless writeTypes; cases h : n.elem.body <;> simp [h]
  have a2 : ∀ (ts : List (Layer K)) (n : NElem K), writeLayers ts (powerless n).elem = writeLayers ts n.elem := by
    intro ts n; unfold powerless writeLayers; cases h : n.elem.body <;> simp [h]
  have a3 : ∀ (ts : Option (Channel K)) (n : NElem K), writeChannel ts (powerless n).elem = writeChannel ts n.elem := by
    intro ts n; unfold powerless writeChannel; cases h : n.elem.body <;> simp [h]
  have a4 : ∀ (n : NElem K), is4rm (powerless n).elem = is4rm n.elem := by
    intro n; unfold powerless is4rm; cases h : n.elem.body <;> simp [h]
  unfold fillGrid
  have h1 : (((ns.map powerless).map (·.elem)).any is4rm) = ((ns.map (·.elem)).any is4rm) := by
    rw [List.map_map, List.any_map, List.any_map]
    congr 1; funext x; exact a4 x
  rw [h1]
  simp only [List.map_map, List.foldl_map, Function.comp, a1, a2, a3]

theorem fillGrid_amb (n : Nat) (es : List (SElem K (List (FEl K)))) (t : Sink K) (bottom : Option (Sink K)) (a b : K) :
    fillGrid n es (some (.ambient { t with tAmb := a })) (bottom.map fun k => { k with tAmb := b }) =
      (fillGrid n es (some (.ambient t)) bottom).map fun g => withAmb g a b := by
  unfold fillGrid
  simp only
  have h1 : ∀ (x : Bool) (ts : List LType), applyTop (some (.ambient { t with tAmb := a })) x n ts = applyTop (some (.ambient t)) x n ts := by
    intro x ts; simp only [applyTop]; generalize ts.getD (n - 1) LType.none = y; cases y <;> rfl
  have h2 : ∀ ts : List LType, applyBottom (bottom.map fun k : Sink K => { k with tAmb := b }) ts = applyBottom bottom ts := by
    intro ts; cases bottom <;> rfl
  rw [h1]
  cases applyTop (some (.ambient t)) (es.any is4rm) n (es.foldl writeTypes (List.replicate n LType.none)) with
  | none => rfl
  | some ts =>
    simp only [Option.bind_some, h2]
    cases applyBottom bottom ts with
    | none => rfl
    | some ts' => simp [withAmb]

theorem bare_set (fs : List (Option (List (FEl K)))) (i : Nat) (o : Option (List (FEl K))) :
    bare (fs.set i o) = (bare fs).set i (o.map fun es => es.map fun e => { e with powers := [] }) := by
  unfold bare; rw [List.map_set]

theorem bare_writes : ∀ (vs : List (Option (List (FEl K)))) (fs : List (Option (List (FEl K)))) (i : Nat), bare (writes fs i vs) = writes (bare fs) i (bare vs)
  | [], fs, i => rfl
  | v :: vs, fs, i => by
    rw [writes, bare_writes vs, bare_set]
    rfl

theorem writeFlp_powerless (fs : List (Option (List (FEl K)))) (n : NElem K) : writeFlp (bare fs) (powerless n).elem = bare (writeFlp fs n.elem) := by
  obtain ⟨⟨id, b, o⟩, dx, dy⟩ := n
  cases b with
  | die b =>
    simp only [powerless, writeFlp, bare_set, bare_writes, Option.map_some]
    congr 2
    simp [bare, Die.layers]
  | layer l => simp only [powerless, writeFlp, bare_set]; rfl
  | channel c => rfl

theorem fillFlps_powerless (n : Nat) (ns : List (NElem K)) :
    fillFloorplans n ((ns.map powerless).map (·.elem)) = bare (fillFloorplans n (ns.map (·.elem))) := by
  have key : ∀ (ns : List (NElem K)) (fs : List (Option (List (FEl K)))),
      ((ns.map powerless).map (·.elem)).foldl writeFlp (bare fs) = bare ((ns.map (·.elem)).foldl writeFlp fs) := by
    intro ns
    induction ns with
    | nil => intro fs; rfl
    | cons n ns ih =>
      intro fs
      simp only [List.map_cons, List.foldl_cons]
      rw [writeFlp_powerless]
      exact ih _
  unfold fillFloorplans
  rw [← key]
  simp [bare]

/-- Without the power values. -/
theorem build_powerless (d : Dims K) (top : Option (TopSink K)) (bottom : Option (Sink K)) (ns : List (NElem K)) :
    buildNU d top bottom (ns.map powerless) = (buildNU d top bottom ns).map fun G => { G with flps := bare G.flps, ns := G.ns.map powerless } := by
  have h1 : numberOfCells d top (ns.map powerless) = numberOfCells d top ns := by
    unfold numberOfCells
    rw [List.map_map, show countElem d ∘ powerless = countElem d from funext (count_powerless d)]
  have h2 : (ns.map powerless).map fixDiscr = (ns.map fixDiscr).map powerless := by
    rw [List.map_map, List.map_map]
    congr 1
    funext n
    exact fix_powerless n
  have h3 : layersOf d top ((ns.map fixDiscr).map powerless) = layersOf d top (ns.map fixDiscr) := by
    unfold layersOf
    rw [stackLayers_powerless]
  unfold buildNU
  rw [h1, h2]
  cases numberOfCells d top ns with
  | none => rfl
  | some N =>
    simp only [Option.bind_some]
    rw [fillGrid_powerless, h3, fillFlps_powerless]
    cases fillGrid d.nLayers ((ns.map fixDiscr).map (·.elem)) top bottom <;> rfl

theorem build_amb (d : Dims K) (t : Sink K) (bottom : Option (Sink K)) (a b : K) (ns : List (NElem K)) :
    buildNU d (some (.ambient { t with tAmb := a })) (bottom.map fun k => { k with tAmb := b }) ns =
      (buildNU d (some (.ambient t)) bottom ns).map fun G => { G with g := withAmb G.g a b } := by
  unfold buildNU
  simp only [numberOfCells, Option.bind_some]
  rw [fillGrid_amb]
  cases fillGrid d.nLayers ((ns.map fixDiscr).map (·.elem)) (some (.ambient t)) bottom <;> rfl

/-- Stacks that differ in their power values and in the ambient temperatures only. -/
theorem build_same {d : Dims K} {t : Sink K} {bottom : Option (Sink K)} {a b : K} {ns ns' : List (NElem K)} (hn : ns'.map powerless = ns.map powerless)
    {G G' : Grid K} (h : buildNU d (some (.ambient t)) bottom ns = some G)
    (h' : buildNU d (some (.ambient { t with tAmb := a })) (bottom.map fun k => { k with tAmb := b }) ns' = some G') : SameGrid a b G G' := by
  rw [build_amb] at h'
  obtain ⟨G1, h1, rfl⟩ := Option.map_eq_some_iff.mp h'
  have e1 := build_powerless d (some (.ambient t)) bottom ns
  have e2 := build_powerless d (some (.ambient t)) bottom ns'
  rw [hn, e1, h, h1, Option.map_some, Option.map_some, Option.some.injEq, Grid.mk.injEq] at e2
  obtain ⟨c1, c2, c3, c4, c5, c6⟩ := e2
  obtain ⟨d1, n1, g1, l1, f1, m1⟩ := G1
  simp only at c1 c2 c3 c4 c5 c6
  subst c1 c2 c3 c4
  exact ⟨f1, m1, rfl, c5.symm, c6.symm⟩

end Verif.NU
