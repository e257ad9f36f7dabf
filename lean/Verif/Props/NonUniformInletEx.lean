import Verif.Props.NonUniformInlet
import Verif.Lemmas.NuChannelEx

set_option linter.unusedSimpArgs false
set_option linter.unusedVariables false

/-! # C59: concrete cases -/

namespace Verif.NU
open Verif.Dim Verif.TG Verif.Stk Verif.SM

/-- The 4RM example with powers `p` and `q` in the two elements of the die, and the ambient at the temperature of the inlet. -/
def hotFlp (p q : ℚ) : List (FEl ℚ) := [⟨⟨0, 0, 45, 20⟩, [], 1, 1, none, [p]⟩, ⟨⟨45, 0, 45, 20⟩, [], 1, 1, none, [q]⟩]
def hotRaw (p q : ℚ) : List (Raw ℚ (List (FEl ℚ))) := [⟨"die", .die ⟨[], exLayer 5, [], hotFlp p q⟩⟩, ⟨"ch", .channel⟩, ⟨"base", .layer (exLayer 20)⟩]
def hotElems (p q : ℚ) : List (NElem ℚ) :=
  [⟨⟨"base", .layer (exLayer 20), 0⟩, 1, 1⟩, wetChannel .mc4rm, ⟨⟨"die", .die ⟨[exLayer 5], 0, hotFlp p q⟩, 2⟩, 1, 1⟩]
def hotTop : Sink ℚ := ⟨1, (exChannel .mc4rm).coolant.tIn⟩
def hotGrid (p q : ℚ) : Grid ℚ :=
  { wet4Grid with
    g := { wet4Grid.g with top := some (.ambient hotTop) }
    flps := [none, none, some (hotFlp p q)]
    ns := (hotElems p q).map fixDiscr }

theorem hotFile (p q : ℚ) : ∃ x g, BuiltFrom exDims (some (exChannel .mc4rm)) (hotRaw p q) x g ∧ (hotElems p q).map (·.elem) = x.elems ∧
    buildNU x.dims g.top g.bottom (hotElems p q) = some (hotGrid p q) := by
  refine ⟨_, (hotGrid p q).g, ⟨?_, ?_, ?_, ?_, rfl, rfl⟩, rfl, ?_⟩
  · show 1 ≤ 2; decide
  · show 1 ≤ 5; decide
  · intro s h; simp [spreaderOf, hotGrid] at h
  · rintro ch h; simp only [Option.some.injEq] at h; subst h; simp [exChannel]
  · have e : buildNU (hotGrid p q).d (hotGrid p q).g.top (hotGrid p q).g.bottom (hotElems p q) =
        some { hotGrid p q with ls := layersOf (hotGrid p q).d (hotGrid p q).g.top ((hotElems p q).map fixDiscr) } := rfl
    refine e.trans ?_
    have hls : layersOf (hotGrid p q).d (hotGrid p q).g.top ((hotElems p q).map fixDiscr) = layersOf wet4Grid.d wet4Grid.g.top ((wetElems .mc4rm 2).map fixDiscr) := rfl
    have hls' : layersOf wet4Grid.d wet4Grid.g.top ((wetElems .mc4rm 2).map fixDiscr) = wet4Grid.ls := by decide +kernel
    rw [hls, hls']
    rfl

theorem hotFrom (p q : ℚ) : FromStack exDims (some (exChannel .mc4rm)) (hotRaw p q) (hotElems p q) (hotGrid p q) := .fresh (hotFile p q)

theorem hotFits (p q : ℚ) : ChipFits (hotGrid p q).d := wet4Fits
theorem hotSharp (p q : ℚ) : Sharp (hotGrid p q) := wet4Sharp
theorem hotPhysical (p q : ℚ) : PhysicalNU (hotGrid p q) := by
  refine ⟨wet4Physical.hts, wet4Physical.cell, wet4Physical.mat, ?_, ?_⟩
  · intro s h; simp [hotGrid] at h; subst h; norm_num [hotTop]
  · intro s m h; simp [hotGrid] at h
theorem hotOdd (p q : ℚ) : OddColumns (hotGrid p q) := fun _ _ _ => (by decide : 5 % 2 = 1)
theorem hotFull (p q : ℚ) : Full (hotGrid p q) := by
  have : ∀ lc ∈ wet4Grid.ls, lc ≠ [] := by decide +kernel
  exact this
theorem hot_mem (p q : ℚ) : wetChannel .mc4rm ∈ hotElems p q := by simp [hotElems]
theorem hotDivided (p q : ℚ) : ∀ (l : Nat) es, (hotGrid p q).flps[l]? = some (some es) → ∀ e ∈ es, e.dx * e.dy ≠ 0 ∧ e.powers ≠ [] := by
  intro l es h e he
  match l, h with
  | 0, h => simp [hotGrid] at h
  | 1, h => simp [hotGrid] at h
  | 2, h =>
    simp only [hotGrid, List.getElem?_cons_succ, List.getElem?_cons_zero, Option.some.injEq] at h
    subst h
    simp only [hotFlp, List.mem_cons, List.not_mem_nil, or_false] at he
    rcases he with rfl | rfl <;> simp
  | l + 3, h => simp [hotGrid] at h
theorem hotSources (p q : ℚ) : ∃ S fl', sourcesNU (hotGrid p q).g (hotGrid p q).d (hotGrid p q).cells (hotGrid p q).flps = some (S, fl') := by
  obtain ⟨r, hr⟩ := sources_some (hotFrom p q).laid (hotFull p q) fun l es h e he => (hotDivided p q l es h e he).2
  exact ⟨r.1, r.2, hr⟩

/-- C59_sources: the inlet of the fourth column, the same column further down, the second element of the die. -/
example (p q : ℚ) : ∃ S fl' c, sourcesNU (hotGrid p q).g (hotGrid p q).d (hotGrid p q).cells (hotGrid p q).flps = some (S, fl') ∧
    S[4]? = some (stream (exChannel .mc4rm) (hotGrid p q).d 3 * (exChannel .mc4rm).coolant.tIn) ∧ 0 < stream (exChannel .mc4rm) (hotGrid p q).d 3 ∧
    S[12]? = some (fromSinks (hotGrid p q) c + q / 1) := by
  obtain ⟨S, fl', h⟩ := hotSources p q
  obtain ⟨-, h1, h2, -⟩ := C59_sources (hotFrom p q) (hotOdd p q) (hotPhysical p q) (hotFull p q) h
  obtain ⟨c, -, -, -, hc⟩ := h2 2 _ rfl [⟨⟨0, 0, 45, 20⟩, [], 1, 1, none, [p]⟩] ⟨⟨45, 0, 45, 20⟩, [], 1, 1, none, [q]⟩ [] rfl 0 (show 0 < 1 * 1 by decide)
  refine ⟨S, fl', c, h, h1 _ (hot_mem p q) (exChannel .mc4rm) rfl 3 (by show 3 < 5; decide) (fun _ => ⟨rfl, by show 3 + 1 < 5; decide⟩), ?_, ?_⟩
  · show 0 < stream (exChannel .mc4rm) wet4Grid.d 3
    decide +kernel
  · refine hc.trans ?_
    show some (_ + q / ((1 * 1 : Nat) : ℚ)) = _
    norm_num

/-- C59_heat_balance, with the capacities of the program. -/
example (p q : ℚ) (a : Ana ℚ) (m : Csc ℚ) (hm : Assembled id (hotGrid p q) a m) (S : List ℚ) (fl' : List (Option (List (FEl ℚ))))
    (h : sourcesNU (hotGrid p q).g (hotGrid p q).d (hotGrid p q).cells (hotGrid p q).flps = some (S, fl')) (T T' : Nat → ℚ)
    (hsol : Solves 13 m.entry T' fun i => storage a (((hotGrid p q).cells[i]?).elim 0 (capacityNU (hotGrid p q).g (hotGrid p q).d)) * T i + S.getD i 0) :
    ∑ i ∈ Finset.range 13, storage a (((hotGrid p q).cells[i]?).elim 0 (capacityNU (hotGrid p q).g (hotGrid p q).d)) * (T' i - T i) =
      totalPower (hotGrid p q) + (((hotGrid p q).cells.map (fromSinks (hotGrid p q))).sum -
        ∑ i ∈ Finset.range 13, ((hotGrid p q).cells[i]?).elim 0 (toAmbient (hotGrid p q)) * T' i) +
      overColumns (hotGrid p q) (hotElems p q) fun n ch c => stream ch (hotGrid p q).d c * (ch.coolant.tIn - T' ((hotGrid p q).at (coolantLayer n.elem ch) (2 - 1) c)) := by
  refine C59_heat_balance (hotFrom p q) (hotFits p q) (hotPhysical p q) (hotSharp p q) (hotOdd p q) (hotFull p q) hm
    (fun l es h e he => (hotDivided p q l es h e he).1) (fun i => ?_) h hsol
  cases hc : (hotGrid p q).cells[i]? with
  | none => intro cell h'; rw [hc] at h'; cases h'
  | some c => exact C59_capacities (hotFrom p q) (hotFits p q) (hotPhysical p q) (hotSharp p q) i c hc

/-- The matrix and the sources of that example exist. -/
example (p q : ℚ) (a : Ana ℚ) : ∃ m S fl', Assembled id (hotGrid p q) a m ∧
    sourcesNU (hotGrid p q).g (hotGrid p q).d (hotGrid p q).cells (hotGrid p q).flps = some (S, fl') := by
  obtain ⟨m, hm⟩ := assembled_exists id (hotGrid p q) a
  obtain ⟨S, fl', h⟩ := hotSources p q
  exact ⟨m, S, fl', hm, h⟩

/-- C59_equilibrium_partial: without power the example stays at the temperature of the inlet. -/
example (a : Ana ℚ) : ∃ m S fl', Assembled id (hotGrid 0 0) a m ∧
    sourcesNU (hotGrid 0 0).g (hotGrid 0 0).d (hotGrid 0 0).cells (hotGrid 0 0).flps = some (S, fl') ∧
    Solves 13 m.entry (fun _ => hotTop.tAmb) (fun i =>
      storage a (((hotGrid 0 0).cells[i]?).elim 0 (capacityNU (hotGrid 0 0).g (hotGrid 0 0).d)) * hotTop.tAmb + S.getD i 0) := by
  obtain ⟨m, hm⟩ := assembled_exists id (hotGrid 0 0) a
  obtain ⟨S, fl', h⟩ := hotSources 0 0
  refine ⟨m, S, fl', hm, h, ?_⟩
  refine C59_equilibrium_partial (hotFrom 0 0) (hotFits 0 0) (hotPhysical 0 0) (hotSharp 0 0) (hotOdd 0 0) (hotFull 0 0) hm ?_ (fun i => ?_) ?_ rfl ?_ h
  · intro l es h e he
    match l, h with
    | 0, h => simp [hotGrid] at h
    | 1, h => simp [hotGrid] at h
    | 2, h =>
      simp only [hotGrid, List.getElem?_cons_succ, List.getElem?_cons_zero, Option.some.injEq] at h
      subst h
      simp only [hotFlp, List.mem_cons, List.not_mem_nil, or_false] at he
      rcases he with rfl | rfl <;> rfl
    | l + 3, h => simp [hotGrid] at h
  · cases hc : (hotGrid 0 0).cells[i]? with
    | none => intro cell h'; rw [hc] at h'; cases h'
    | some c => exact C59_capacities (hotFrom 0 0) (hotFits 0 0) (hotPhysical 0 0) (hotSharp 0 0) i c hc
  · intro s hs; simp [hotGrid] at hs; rw [← hs]
  · intro ch hch; simp [hotGrid, wet4Grid] at hch; rw [← hch]; rfl

end Verif.NU
