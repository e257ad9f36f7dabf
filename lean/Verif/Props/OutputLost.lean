import Verif.Props.Output

/-! C32: files that cannot be opened during the simulation. -/

set_option linter.unusedSectionVars false

namespace Verif.Out
open Verif.Emu Verif.SM Verif.TG Verif.Dim

variable {K : Type} [Field K] [LinearOrder K] [IsStrictOrderedRing K] [FloorRing K] {π : Type}

/-! ### Specification -/

/-- The file of the point can be opened (a three-dimensional map of a uniform grid opens none). -/
def canWrite (canOpen : String → Bool) (p : Point K) : Bool :=
  match p.kind with
  | .t3d => true
  | _ => canOpen p.file

/-- Of the points of an instant, those before the first whose file cannot be opened. -/
def keptAt (canOpen : String → Bool) (i : Instant) (ps : List (Point K)) : List (Point K) := (ofInstant i ps).takeWhile (canWrite canOpen)

/-- Those of the three instants. -/
def kept (canOpen : String → Bool) (ps : List (Point K)) : List (Point K) := keptAt canOpen .final ps ++ (keptAt canOpen .slot ps ++ keptAt canOpen .step ps)

/-! ### Proofs -/

theorem writePoints_kept {canOpen : String → Bool} (d : Dims K) (T S : List K) (t : K) : ∀ {ps : List (Point K)}, (∀ p ∈ ps, Sound p) →
    (writePoints canOpen d T S t ps).1 = (writePoints (fun _ => true) d T S t (ps.takeWhile (canWrite canOpen))).1
  | [], _ => rfl
  | p :: ps, hs => by
    have ih := writePoints_kept (canOpen := canOpen) d T S t (ps := ps) fun q hq => hs q (by simp [hq])
    by_cases hc : canWrite canOpen p = true
    · have ho : p.kind = .t3d ∨ canOpen p.file = true := by
        unfold canWrite at hc
        cases hk : p.kind <;> simp_all
      have h1 := writePoint_sound d T S t (hs p (by simp)) ho
      have h2 := writePoint_sound (canOpen := fun _ => true) d T S t (hs p (by simp)) (Or.inr rfl)
      rw [List.takeWhile_cons_of_pos hc]
      simp only [writePoints, h1, h2, if_true, ih]
    · have h1 : writePoint canOpen d T S t p = ([], false) := by
        unfold canWrite at hc
        unfold writePoint
        cases hk : p.kind <;> simp_all
      rw [List.takeWhile_cons_of_neg hc]
      simp [writePoints, h1]

theorem keptAt_instant {canOpen : String → Bool} {i : Instant} {ps : List (Point K)} : ∀ p ∈ keptAt canOpen i ps, p.instant = i := by
  intro p hp
  have := (List.takeWhile_sublist (p := canWrite canOpen) (l := ofInstant i ps)).mem hp
  simpa [ofInstant] using (List.mem_filter.mp this).2

theorem ofInstant_keptAt {canOpen : String → Bool} {i j : Instant} {ps : List (Point K)} :
    ofInstant i (keptAt canOpen j ps) = if i = j then keptAt canOpen j ps else [] := by
  by_cases h : i = j
  · subst h
    rw [if_pos rfl, ofInstant, List.filter_eq_self]
    intro p hp
    simp [keptAt_instant p hp]
  · rw [if_neg h, ofInstant, List.filter_eq_nil_iff]
    intro p hp
    simp [keptAt_instant p hp, Ne.symm h]

theorem ofInstant_kept {canOpen : String → Bool} {i : Instant} (hi : i ≠ .none) {ps : List (Point K)} : ofInstant i (kept canOpen ps) = keptAt canOpen i ps := by
  have app : ∀ a b : List (Point K), ofInstant i (a ++ b) = ofInstant i a ++ ofInstant i b := fun a b => by simp [ofInstant]
  rw [kept, app, app, ofInstant_keptAt, ofInstant_keptAt, ofInstant_keptAt]
  cases i <;> simp at hi ⊢

theorem outputNow_kept {canOpen : String → Bool} {cfg : Cfg K π} (s : Sim K π) {ps : List (Point K)} (hs : ∀ p ∈ ps, Sound p) {i : Instant} (hi : i ≠ .none) :
    outputNow canOpen (addPoints ps) cfg s i = outputNow (fun _ => true) (addPoints (kept canOpen ps)) cfg s i := by
  have h1 : ∀ i, ∀ p ∈ ofInstant i ps, Sound p := fun i p hp => hs p (List.mem_of_mem_filter hp)
  unfold outputNow generateOutput
  rw [addPoints_eq, addPoints_eq, ofInstant_kept (i := .final) (by simp), ofInstant_kept (i := .slot) (by simp), ofInstant_kept (i := .step) (by simp)]
  cases i
  · exact absurd rfl hi
  all_goals exact writePoints_kept _ _ _ _ (h1 _)

theorem afterCall_kept {canOpen : String → Bool} {cfg : Cfg K π} (r : SimResult) (s : Sim K π) {ps : List (Point K)} (hs : ∀ p ∈ ps, Sound p) :
    afterCall canOpen (addPoints ps) cfg r s = afterCall (fun _ => true) (addPoints (kept canOpen ps)) cfg r s := by
  unfold afterCall
  rw [outputNow_kept s hs (by simp), outputNow_kept s hs (by simp)]

theorem loop_kept {canOpen : String → Bool} {cfg : Cfg K π} {f : Sim K π → SimResult × Sim K π} {ps : List (Point K)} (hs : ∀ p ∈ ps, Sound p) {s s' : Sim K π} {log : Log K}
    (h : Loop canOpen (addPoints ps) cfg f s log s') : Loop (fun _ => true) (addPoints (kept canOpen ps)) cfg f s log s' := by
  induction h with
  | stop h1 h2 => rw [afterCall_kept _ _ hs]; exact .stop h1 h2
  | again h1 h2 h3 _ ih => rw [afterCall_kept _ _ hs]; exact .again h1 h2 h3 ih

/-! ### The theorem -/

/-- **C32 (violated)** If the file of a point cannot be opened while the simulation runs, its records and those of all the points of the same
instant declared after it are lost; the simulation goes on as if these points had not been declared. So the files hold what C32 says of the
points before. -/
theorem C32_unopenable_violated {canOpen : String → Bool} {cfg : Cfg K π} {ps : List (Point K)} (hs : ∀ p ∈ ps, Sound p) {s s' : Sim K π} {log : Log K}
    (h : Emulated canOpen (addPoints ps) cfg s log s') :
    Emulated (fun _ => true) (addPoints (kept canOpen ps)) cfg s log s' ∧ (∀ p ∈ kept canOpen ps, Sound p) ∧
    ∀ i, i ≠ .none → ∀ a p b, ofInstant i ps = a ++ p :: b → (∀ q ∈ a, canWrite canOpen q = true) → canWrite canOpen p = false →
      ofInstant i (kept canOpen ps) = a := by
  refine ⟨?_, ?_, ?_⟩
  · obtain ⟨f, log1, h1, h2, h3⟩ := h
    exact ⟨f, log1, h1, loop_kept hs h2, by rw [h3, outputNow_kept s' hs (by simp)]⟩
  · have sub : ∀ i, ∀ p ∈ keptAt canOpen i ps, p ∈ ps := fun i p hp =>
      List.mem_of_mem_filter ((List.takeWhile_sublist (p := canWrite canOpen) (l := ofInstant i ps)).mem hp)
    intro p hp
    simp only [kept, List.mem_append] at hp
    rcases hp with hp | hp | hp <;> exact hs p (sub _ p hp)
  · intro i hi a p b he ha hp
    rw [ofInstant_kept hi, keptAt, he, List.takeWhile_append_of_pos ha, List.takeWhile_cons_of_neg (by simp [hp]), List.append_nil]

/-- Two points of the same instant; the file of the first cannot be opened: no record at all. -/
example : ∃ log s', Emulated (fun f => f != "a.txt") (addPoints [⟨.step, .tcell 0 0 0, .none, "a.txt"⟩, ⟨.step, .tmap 0, .none, "b.txt"⟩])
      (demoCfg .transient 3) (demoSim .transient 3 [1, 2] [4, 5, 6]) log s' ∧
    kept (fun f => f != "a.txt") [⟨.step, .tcell 0 0 0, .none, "a.txt"⟩, (⟨.step, .tmap 0, .none, "b.txt"⟩ : Point ℚ)] = [] ∧
    ∀ p ∈ [⟨.step, .tcell 0 0 0, .none, "a.txt"⟩, (⟨.step, .tmap 0, .none, "b.txt"⟩ : Point ℚ)], Sound p := by
  obtain ⟨log, s', he⟩ := C32_simulation_ends (canOpen := fun f => f != "a.txt")
    (o := addPoints [⟨.step, .tcell 0 0 0, .none, "a.txt"⟩, ⟨.step, .tmap 0, .none, "b.txt"⟩]) (demo_started .transient 3 [1, 2] [4, 5, 6]) rfl (by decide)
    (by rw [demo_elements]; simp)
  refine ⟨log, s', he, by decide +kernel, ?_⟩
  intro p hp
  simp only [List.mem_cons, List.not_mem_nil, or_false] at hp
  rcases hp with rfl | rfl <;> simp [Sound]

end Verif.Out
