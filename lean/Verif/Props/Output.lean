import Verif.Model.Output
import Verif.Props.Sources

/-! # C32: each inspection point is written at exactly its instants -/

set_option linter.unusedSectionVars false
set_option linter.unusedSimpArgs false
set_option linter.unusedVariables false

namespace Verif.Out
open Verif.Dim Verif.TG Verif.SM Verif.Flp Verif.Stk Verif.Emu

variable {K : Type} [Field K] [LinearOrder K] [IsStrictOrderedRing K] {π : Type}

/-! ### Specification -/

/-- An inspection point as the parser builds it: it has a type, an instant and, where one is needed, a quantity. -/
def Sound (p : Point K) : Prop :=
  p.instant ≠ .none ∧ match p.kind with
    | .none => False
    | .tflp _ _ | .tflpel _ _ | .tcoolant _ _ => p.quantity ≠ .none
    | _ => True

/-- The record of a point for given temperatures, sources and time (nothing for a three-dimensional map). -/
def recordOf (cfg : Cfg K π) (s : Sim K π) (time : K) (p : Point K) : Option (Record K) := (render cfg.d s.temps s.sources time p).1

/-- The records of the points `ps`, in order, each with its file. -/
def entries (cfg : Cfg K π) (s : Sim K π) (time : K) (ps : List (Point K)) : Log K :=
  ps.flatMap fun p => ((recordOf cfg s time p).toList.map fun x => (p.file, x))

/-- The points of an instant, in the order of their declaration. -/
def ofInstant (i : Instant) (ps : List (Point K)) : List (Point K) := ps.filter fun p => decide (p.instant = i)

/-- What was appended to a file. -/
def contents (log : Log K) (f : String) : List (Record K) := (log.filter fun e => decide (e.1 = f)).map (·.2)

/-- The state after `k` calls of `emulate_step`. -/
abbrev after (cfg : Cfg K π) (s : Sim K π) (k : Nat) : Sim K π := (steps cfg k s).2

/-! ### Proofs -/

theorem addPoints_append (ps : List (Point K)) : ∀ o : Output K, ps.foldl addPoint o =
    ⟨o.final ++ ofInstant .final ps, o.slot ++ ofInstant .slot ps, o.step ++ ofInstant .step ps⟩ := by
  induction ps with
  | nil => intro o; simp [ofInstant]
  | cons p ps ih =>
    intro o
    rw [List.foldl_cons, ih]
    cases hi : p.instant <;> simp [addPoint, hi, ofInstant, List.filter_cons]

theorem addPoints_eq (ps : List (Point K)) : addPoints ps = ⟨ofInstant .final ps, ofInstant .slot ps, ofInstant .step ps⟩ := by
  unfold addPoints
  rw [addPoints_append]
  simp [Output.empty]

theorem writePoint_sound {canOpen : String → Bool} (d : Dims K) (T S : List K) (t : K) {p : Point K} (hs : Sound p) (ho : p.kind = .t3d ∨ canOpen p.file = true) :
    writePoint canOpen d T S t p = ((render d T S t p).1.toList.map fun x => (p.file, x), true) := by
  unfold writePoint
  unfold Sound at hs
  obtain ⟨-, hs⟩ := hs
  cases hk : p.kind <;> simp_all [render]

theorem writePoints_sound {canOpen : String → Bool} (d : Dims K) (T S : List K) (t : K) {ps : List (Point K)} (hs : ∀ p ∈ ps, Sound p)
    (ho : ∀ p ∈ ps, p.kind = .t3d ∨ canOpen p.file = true) :
    writePoints canOpen d T S t ps = (ps.flatMap fun p => ((render d T S t p).1.toList.map fun x => (p.file, x)), true) := by
  induction ps with
  | nil => rfl
  | cons p ps ih =>
    have h1 := writePoint_sound d T S t (hs p (by simp)) (ho p (by simp))
    have h2 := ih (fun q hq => hs q (by simp [hq])) (fun q hq => ho q (by simp [hq]))
    simp only [writePoints, h1, h2, if_true, List.flatMap_cons]

theorem outputNow_sound {canOpen : String → Bool} {cfg : Cfg K π} (s : Sim K π) {ps : List (Point K)} (hs : ∀ p ∈ ps, Sound p)
    (ho : ∀ p ∈ ps, p.kind = .t3d ∨ canOpen p.file = true) {i : Instant} (hi : i ≠ .none) :
    outputNow canOpen (addPoints ps) cfg s i = entries cfg s ((s.time : K) * cfg.an.stepTime) (ofInstant i ps) := by
  have h1 : ∀ i, ∀ p ∈ ofInstant i ps, Sound p := fun i p hp => hs p (List.mem_of_mem_filter hp)
  have h2 : ∀ i, ∀ p ∈ ofInstant i ps, p.kind = .t3d ∨ canOpen p.file = true := fun i p hp => ho p (List.mem_of_mem_filter hp)
  unfold outputNow generateOutput simulatedTime entries recordOf
  rw [addPoints_eq]
  cases i
  · exact absurd rfl hi
  all_goals simp only [writePoints_sound _ _ _ _ (h1 _) (h2 _)]

/-- The states of a loop. -/
theorem loop_spec {canOpen : String → Bool} {o : Output K} {cfg : Cfg K π} {s s' : Sim K π} {log : Log K}
    (ht : cfg.an.type = .transient) (hr : Ready s) (h : Loop canOpen o cfg (emulateStep cfg) s log s') :
    ∃ n, (∀ k, k < n → Succeeded (emulateStep cfg (after cfg s k)).1) ∧
      ((emulateStep cfg (after cfg s n)).1 = .endOfSimulation ∨ (emulateStep cfg (after cfg s n)).1 = .solverError) ∧
      s' = after cfg s (n + 1) ∧
      log = (List.range n).flatMap fun k => afterCall canOpen o cfg (emulateStep cfg (after cfg s k)).1 (after cfg s (k + 1)) := by
  induction h with
  | @stop s r s' h1 h2 =>
    refine ⟨0, by simp, ?_, ?_, ?_⟩
    · have e : (emulateStep cfg (after cfg s 0)).1 = r := by show (emulateStep cfg s).1 = r; rw [h1]
      rw [e]; exact h2
    · show s' = (emulateStep cfg s).2
      rw [h1]
    · rcases h2 with rfl | rfl <;> simp [afterCall]
  | @again s r s1 log s' h1 h2 h3 h4 ih =>
    have e1 : (emulateStep cfg s).2 = s1 := by rw [h1]
    have e0 : (emulateStep cfg s).1 = r := by rw [h1]
    have hr1 : Ready s1 := by rw [← e1]; exact (step_spec hr).1
    obtain ⟨n, a, b, c, d⟩ := ih hr1
    have ha : ∀ k, after cfg s (k + 1) = after cfg s1 k := by
      intro k
      show (run cfg (List.replicate (k + 1) .step) s).2 = (run cfg (List.replicate k .step) s1).2
      rw [List.replicate_succ]
      show (run cfg (List.replicate k .step) (emulateStep cfg s).2).2 = _
      rw [e1]
    refine ⟨n + 1, ?_, ?_, ?_, ?_⟩
    · intro k hk
      cases k with
      | zero =>
        show Succeeded (emulateStep cfg s).1
        obtain ⟨-, -, -, hc⟩ := step_spec (cfg := cfg) hr
        rcases hc with ⟨-, h5, -⟩ | ⟨h5, -⟩ | ⟨-, -, -, ⟨h5, -⟩ | ⟨h5, -⟩⟩
        · exact absurd ht h5
        · rw [e0] at h5; exact absurd h5 h2
        · rw [e0] at h5; exact absurd h5 h3
        · exact h5
      | succ k => rw [ha]; exact a k (by omega)
    · rw [ha]; exact b
    · rw [ha]; exact c
    · rw [List.range_succ_eq_map, List.flatMap_cons, List.flatMap_map, d]
      congr 1
      · have : after cfg s (0 + 1) = s1 := by rw [ha]; rfl
        rw [this]
        show _ = afterCall canOpen o cfg (emulateStep cfg s).1 s1
        rw [e0]
      · congr 1
        funext k
        rw [ha k, ha (k + 1)]

/-- Time, result and remaining powers along a run. -/
theorem steps_along {cfg : Cfg K π} {s : Sim K π} (ht : cfg.an.type = .transient) (hL : 0 < cfg.an.slotLength) (hr : Ready s) (h0 : s.time = 0) :
    ∀ n, n < W → (∀ k, k < n → Succeeded (emulateStep cfg (after cfg s k)).1) →
      Ready (after cfg s n) ∧ (after cfg s n).time = n ∧
      (∀ k, k < n → ((emulateStep cfg (after cfg s k)).1 = .slotDone ↔ cfg.an.slotLength ∣ k + 1)) ∧
      traces (after cfg s n) = (traces s).map (List.drop ((n + cfg.an.slotLength - 1) / cfg.an.slotLength)) := by
  intro n
  induction n with
  | zero =>
    intro _ _
    refine ⟨hr, h0, by simp, ?_⟩
    rw [Nat.zero_add, Nat.div_eq_of_lt (by omega)]
    simp [after, steps, run, show (List.drop 0 : List K → List K) = id from rfl]
  | succ n ih =>
    intro hn hok
    obtain ⟨i1, i2, i3, i4⟩ := ih (by omega) (fun k hk => hok k (by omega))
    have hs := hok n (by omega)
    have e : after cfg s (n + 1) = (emulateStep cfg (after cfg s n)).2 := by
      unfold after; rw [run_snoc_step]
    rw [e]
    obtain ⟨a1, -, -, hc⟩ := step_spec (cfg := cfg) i1
    rcases hc with ⟨-, h5, -⟩ | ⟨h5, -⟩ | ⟨-, -, h4, ⟨h5, -⟩ | ⟨h5, h6, h7⟩⟩
    · exact absurd ht h5
    · rw [h5] at hs; simp [Succeeded] at hs
    · rw [h5] at hs; simp [Succeeded] at hs
    · rw [i2, Nat.mod_eq_of_lt hn] at h6 h7
      refine ⟨a1, h6, ?_, ?_⟩
      · intro k hk
        rcases Nat.lt_or_ge k n with hk' | hk'
        · exact i3 k hk'
        · have : k = n := by omega
          subst this
          rw [h7, Nat.dvd_iff_mod_eq_zero]
      · rw [i2] at h4
        have hd : (n + 1 + cfg.an.slotLength - 1) / cfg.an.slotLength =
            (n + cfg.an.slotLength - 1) / cfg.an.slotLength + if n % cfg.an.slotLength = 0 then 1 else 0 := by
          generalize cfg.an.slotLength = L at hL ⊢
          have h1 := Nat.div_add_mod n L
          have h2 := Nat.mod_lt n hL
          rw [show n + 1 + L - 1 = n + L by omega, Nat.add_div_right _ hL]
          by_cases hz : n % L = 0
          · rw [if_pos hz]
            have : n + L - 1 = L * (n / L) + (L - 1) := by omega
            rw [this, Nat.mul_add_div hL, Nat.div_eq_of_lt (show L - 1 < L by omega)]
          · rw [if_neg hz]
            have : n + L - 1 = L * (n / L + 1) + (n % L - 1) := by rw [Nat.mul_add]; omega
            rw [this, Nat.mul_add_div hL, Nat.div_eq_of_lt (show n % L - 1 < L by omega)]
        have htr : traces (emulateStep cfg (after cfg s n)).2 =
            if n % cfg.an.slotLength = 0 then (traces (after cfg s n)).map List.tail else traces (after cfg s n) := by
          unfold traces
          rw [h4]
          by_cases hz : n % cfg.an.slotLength = 0
          · simp [hz, pop, Function.comp_def]
          · simp [hz]
        rw [htr, i4, hd]
        by_cases hz : n % cfg.an.slotLength = 0
        · simp [hz, Function.comp_def, List.tail_drop]
        · simp [hz]

/-- If some trace has `m` values, at most `m` slots are simulated. -/
theorem run_bound {cfg : Cfg K π} {s : Sim K π} (ht : cfg.an.type = .transient) (hL : 0 < cfg.an.slotLength) (hr : Ready s) (h0 : s.time = 0)
    {n : Nat} (hok : ∀ k, k < n → Succeeded (emulateStep cfg (after cfg s k)).1) {t : List K} (htr : t ∈ traces s)
    (hW : t.length * cfg.an.slotLength < W) : n ≤ t.length * cfg.an.slotLength := by
  by_contra hn
  have hk : t.length * cfg.an.slotLength < n := by omega
  obtain ⟨h1, h2, -, h4⟩ := steps_along ht hL hr h0 _ hW (fun k hk' => hok k (by omega))
  have hs := hok _ hk
  generalize after cfg s (t.length * cfg.an.slotLength) = s1 at *
  have hd : (t.length * cfg.an.slotLength + cfg.an.slotLength - 1) / cfg.an.slotLength = t.length := by
    rw [show t.length * cfg.an.slotLength + cfg.an.slotLength - 1 = cfg.an.slotLength * t.length + (cfg.an.slotLength - 1) by
      rw [Nat.mul_comm]; omega, Nat.mul_add_div hL, Nat.div_eq_of_lt (by omega)]; rfl
  rw [hd] at h4
  have hmem : ([] : List K) ∈ traces s1 := by
    rw [h4]; exact List.mem_map.mpr ⟨t, htr, List.drop_length⟩
  obtain ⟨e, he, h5⟩ := List.mem_map.mp hmem
  have hm : s1.time % cfg.an.slotLength = 0 := by rw [h2, Nat.mul_mod_left]
  obtain ⟨fs, x, h6, -⟩ := step_end h1 ht hm ⟨e, he, h5⟩
  rw [h6] at hs
  simp [Succeeded] at hs

/-- **C32** The output of a transient simulation. If `n` steps were simulated before the simulation ended (its powers were used up, or the
solver failed), then what was written is, in this order: after each step the records of the step points in the order they were
declared, followed, if the step completed a slot, by those of the slot points; at the end the records of the final points, once. The
records are those of the temperatures and sources of that moment and of the simulated time of that moment.
(One of the power traces must be shorter than 2^32 steps, see C08. The files can be opened: `generate_output_headers` created them, except those of 3D maps.) -/
theorem C32_what_is_written {canOpen : String → Bool} {cfg : Cfg K π} {rs : List (Raw K (List (FlpEl K)))} {s s' : Sim K π} (h : Started cfg rs s)
    (ht : cfg.an.type = .transient) (hL : 0 < cfg.an.slotLength) {ps : List (Point K)} (hs : ∀ p ∈ ps, Sound p)
    (ho : ∀ p ∈ ps, p.kind = .t3d ∨ canOpen p.file = true) (hW : ∃ t ∈ traces s, t.length * cfg.an.slotLength < 2 ^ 32) {log : Log K}
    (he : Emulated canOpen (addPoints ps) cfg s log s') :
    ∃ n, (∀ k, k < n → Succeeded (emulateStep cfg (after cfg s k)).1) ∧
      ((emulateStep cfg (after cfg s n)).1 = .endOfSimulation ∨ (emulateStep cfg (after cfg s n)).1 = .solverError) ∧
      s' = after cfg s (n + 1) ∧
      log = ((List.range n).flatMap fun k =>
          entries cfg (after cfg s (k + 1)) ((k + 1 : Nat) * cfg.an.stepTime) (ofInstant .step ps) ++
          if cfg.an.slotLength ∣ k + 1 then entries cfg (after cfg s (k + 1)) ((k + 1 : Nat) * cfg.an.stepTime) (ofInstant .slot ps) else []) ++
        entries cfg s' (n * cfg.an.stepTime) (ofInstant .final ps) := by
  obtain ⟨hr, -, h0, -⟩ := started_spec h
  obtain ⟨f, log1, h1, h2, h3⟩ := he
  have hf : f = emulateStep cfg := by unfold emulateFn at h1; rw [ht] at h1; simpa using h1.symm
  subst hf
  obtain ⟨n, a, b, c, e⟩ := loop_spec ht hr h2
  obtain ⟨t, htr, hWt⟩ := hW
  rw [← W_eq] at hWt
  have hn : n < W := lt_of_le_of_lt (run_bound ht hL hr h0 a htr hWt) hWt
  refine ⟨n, a, b, c, ?_⟩
  obtain ⟨g1, g2, g3, -⟩ := steps_along ht hL hr h0 n hn a
  have htime : s'.time = n := by
    have e1 : s' = (emulateStep cfg (after cfg s n)).2 := by rw [c]; unfold after; rw [run_snoc_step]
    rw [e1]
    obtain ⟨-, -, -, hc⟩ := step_spec (cfg := cfg) g1
    rcases hc with ⟨-, h5, -⟩ | ⟨-, -, -, -, h5, -⟩ | ⟨-, -, -, ⟨-, h5⟩ | ⟨h5, -⟩⟩
    · exact absurd ht h5
    · rw [h5, g2]
    · rw [h5, g2]
    · rcases b with b | b <;> rw [b] at h5 <;> simp [Succeeded] at h5
  rw [h3, e, outputNow_sound s' hs ho (by simp), htime]
  congr 1
  apply List.flatMap_congr
  intro k hk
  have hk := List.mem_range.mp hk
  have hsk : (emulateStep cfg (after cfg s k)).1 = .stepDone ∨ (emulateStep cfg (after cfg s k)).1 = .slotDone := a k hk
  obtain ⟨-, tk, -⟩ := steps_along ht hL hr h0 (k + 1) (by omega) (fun j hj => a j (by omega))
  have hsl := g3 k hk
  unfold afterCall
  rw [if_pos hsk, outputNow_sound _ hs ho (by simp), outputNow_sound _ hs ho (by simp), tk]
  simp only [hsl]

/-- **C32** Number of steps: if the solver does not fail, the run lasts the slots of the shortest power trace. -/
theorem C32_run_length {canOpen : String → Bool} {cfg : Cfg K π} {rs : List (Raw K (List (FlpEl K)))} {s : Sim K π} (h : Started cfg rs s)
    (ht : cfg.an.type = .transient) (hL : 0 < cfg.an.slotLength) (hW : ∃ t ∈ traces s, t.length * cfg.an.slotLength < 2 ^ 32) {n : Nat}
    (hok : ∀ k, k < n → Succeeded (emulateStep cfg (after cfg s k)).1) (hend : (emulateStep cfg (after cfg s n)).1 = .endOfSimulation) :
    (∃ t ∈ traces s, n = t.length * cfg.an.slotLength) ∧ ∀ t ∈ traces s, n ≤ t.length * cfg.an.slotLength := by
  obtain ⟨hr, -, h0, -⟩ := started_spec h
  obtain ⟨t, htr, hWt⟩ := hW
  rw [← W_eq] at hWt
  have hn : n < W := lt_of_le_of_lt (run_bound ht hL hr h0 hok htr hWt) hWt
  have hle : ∀ t ∈ traces s, n ≤ t.length * cfg.an.slotLength := by
    intro u hu
    by_cases hc : u.length * cfg.an.slotLength < W
    · exact run_bound ht hL hr h0 hok hu hc
    · omega
  refine ⟨?_, hle⟩
  obtain ⟨g1, g2, -, g4⟩ := steps_along ht hL hr h0 n hn hok
  obtain ⟨-, -, -, hc⟩ := step_spec (cfg := cfg) g1
  rcases hc with ⟨h5, -⟩ | ⟨-, -, h5, ⟨e, he, h6⟩, -⟩ | ⟨-, -, -, ⟨h5, -⟩ | ⟨h5, -⟩⟩
  · rw [h5] at hend; simp at hend
  · rw [g2] at h5
    have hmem : ([] : List K) ∈ traces (after cfg s n) := List.mem_map.mpr ⟨e, he, h6⟩
    rw [g4] at hmem
    obtain ⟨u, hu, h7⟩ := List.mem_map.mp hmem
    refine ⟨u, hu, le_antisymm (hle u hu) ?_⟩
    have hdiv : (n + cfg.an.slotLength - 1) / cfg.an.slotLength * cfg.an.slotLength = n := by
      have h1 := Nat.div_add_mod n cfg.an.slotLength
      have : n + cfg.an.slotLength - 1 = cfg.an.slotLength * (n / cfg.an.slotLength) + (cfg.an.slotLength - 1) := by omega
      rw [this, Nat.mul_add_div hL, Nat.div_eq_of_lt (show cfg.an.slotLength - 1 < cfg.an.slotLength by omega), Nat.add_zero, Nat.mul_comm]
      omega
    have := List.drop_eq_nil_iff.mp h7
    calc u.length * cfg.an.slotLength ≤ _ * cfg.an.slotLength := Nat.mul_le_mul_right _ this
      _ = n := hdiv
  · rw [h5] at hend; simp at hend
  · rw [hend] at h5; simp [Succeeded] at h5

/-! ### The content of the file of one point -/

theorem contents_append (a b : Log K) (f : String) : contents (a ++ b) f = contents a f ++ contents b f := by
  simp [contents]

theorem contents_flatMap {α : Type} (L : List α) (g : α → Log K) (f : String) : contents (L.flatMap g) f = L.flatMap fun x => contents (g x) f := by
  induction L with
  | nil => rfl
  | cons a L ih => simp only [List.flatMap_cons, contents_append, ih]

theorem contents_entries (cfg : Cfg K π) (s : Sim K π) (t : K) (qs : List (Point K)) (f : String) :
    contents (entries cfg s t qs) f = (qs.filter fun q => decide (q.file = f)).flatMap fun q => (recordOf cfg s t q).toList := by
  unfold entries
  rw [contents_flatMap]
  induction qs with
  | nil => rfl
  | cons q qs ih =>
    rw [List.flatMap_cons, ih, List.filter_cons]
    by_cases h : q.file = f
    · cases hr : recordOf cfg s t q <;> simp [h, hr, contents]
    · cases hr : recordOf cfg s t q <;> simp [h, hr, contents]

/-- The file of `p` belongs to no other point. -/
def Own (ps : List (Point K)) (p : Point K) : Prop := (ps.filter fun q => decide (q.file = p.file)) = [p]

theorem contents_own (cfg : Cfg K π) (s : Sim K π) (t : K) {ps : List (Point K)} {p : Point K} (h : Own ps p) (i : Instant) :
    contents (entries cfg s t (ofInstant i ps)) p.file = if p.instant = i then (recordOf cfg s t p).toList else [] := by
  rw [contents_entries]
  have : (ofInstant i ps).filter (fun q => decide (q.file = p.file)) = ofInstant i [p] := by
    unfold ofInstant
    rw [List.filter_filter, ← h, List.filter_filter]
    congr 1
    funext q
    exact Bool.and_comm _ _
  rw [this]
  by_cases hi : p.instant = i <;> simp [ofInstant, hi]

/-- A point that prints something: every kind but the three-dimensional map, which exists only on non-uniform grids. -/
def Prints (p : Point K) : Prop := Sound p ∧ match p.kind with | .t3d => False | _ => True

theorem record_some (cfg : Cfg K π) (s : Sim K π) (t : K) {p : Point K} (h : Prints p) : ∃ x, recordOf cfg s t p = some x := by
  obtain ⟨⟨-, h1⟩, h2⟩ := h
  unfold recordOf render
  cases hk : p.kind <;> simp_all
  all_goals cases hq : p.quantity <;> simp_all [elStat, outletStat]

theorem map_some_flatMap {α β : Type} (L : List α) (f : α → Option β) (h : ∀ a ∈ L, ∃ x, f a = some x) :
    (L.flatMap fun a => (f a).toList).map some = L.map f := by
  induction L with
  | nil => rfl
  | cons a L ih =>
    obtain ⟨x, hx⟩ := h a (by simp)
    simp only [List.flatMap_cons, List.map_append, ih (fun b hb => h b (by simp [hb])), List.map_cons, hx]
    rfl

theorem multiples {α : Type} {L : Nat} (hL : 0 < L) (g : Nat → List α) (n : Nat) :
    ((List.range n).flatMap fun k => if L ∣ k + 1 then g (k + 1) else []) = (List.range (n / L)).flatMap fun j => g ((j + 1) * L) := by
  induction n with
  | zero => simp
  | succ n ih =>
    rw [List.range_succ, List.flatMap_append, ih, Nat.succ_div]
    by_cases h : L ∣ n + 1
    · have h' := Nat.div_mul_cancel h
      rw [Nat.succ_div, if_pos h] at h'
      simp only [h, if_true, List.range_succ, List.flatMap_append, List.flatMap_singleton]
      rw [h']
    · simp [h]

/-- **C32** Records by point. In a run of `n` steps, the file of a step point gets one record per step, the file of a slot point one record
per completed slot, the file of a final point one record: the one of that moment, with its simulated time. -/
theorem C32_records_of_a_point {canOpen : String → Bool} {cfg : Cfg K π} {rs : List (Raw K (List (FlpEl K)))} {s s' : Sim K π} (h : Started cfg rs s)
    (ht : cfg.an.type = .transient) (hL : 0 < cfg.an.slotLength) {ps : List (Point K)} (hs : ∀ p ∈ ps, Sound p)
    (ho : ∀ p ∈ ps, p.kind = .t3d ∨ canOpen p.file = true) (hW : ∃ t ∈ traces s, t.length * cfg.an.slotLength < 2 ^ 32) {log : Log K}
    (he : Emulated canOpen (addPoints ps) cfg s log s') :
    ∃ n, (∀ k, k < n → Succeeded (emulateStep cfg (after cfg s k)).1) ∧
      ((emulateStep cfg (after cfg s n)).1 = .endOfSimulation ∨ (emulateStep cfg (after cfg s n)).1 = .solverError) ∧
      s' = after cfg s (n + 1) ∧
      ∀ p, Own ps p → Prints p →
        (p.instant = .step → (contents log p.file).map some =
          (List.range n).map fun k => recordOf cfg (after cfg s (k + 1)) ((k + 1 : Nat) * cfg.an.stepTime) p) ∧
        (p.instant = .slot → (contents log p.file).map some =
          (List.range (n / cfg.an.slotLength)).map fun j =>
            recordOf cfg (after cfg s ((j + 1) * cfg.an.slotLength)) (((j + 1) * cfg.an.slotLength : Nat) * cfg.an.stepTime) p) ∧
        (p.instant = .final → (contents log p.file).map some = [recordOf cfg s' (n * cfg.an.stepTime) p]) := by
  obtain ⟨n, a, b, c, e⟩ := C32_what_is_written h ht hL hs ho hW he
  refine ⟨n, a, b, c, ?_⟩
  intro p hown hpr
  have key : contents log p.file =
      ((List.range n).flatMap fun k =>
        (if p.instant = .step then (recordOf cfg (after cfg s (k + 1)) ((k + 1 : Nat) * cfg.an.stepTime) p).toList else []) ++
        if cfg.an.slotLength ∣ k + 1 then
          (if p.instant = .slot then (recordOf cfg (after cfg s (k + 1)) ((k + 1 : Nat) * cfg.an.stepTime) p).toList else []) else []) ++
      if p.instant = .final then (recordOf cfg s' (n * cfg.an.stepTime) p).toList else [] := by
    rw [e, contents_append, contents_own cfg s' _ hown, contents_flatMap]
    congr 1
    apply List.flatMap_congr
    intro k _
    rw [contents_append, contents_own _ _ _ hown]
    congr 1
    by_cases hd : cfg.an.slotLength ∣ k + 1
    · simp only [hd, if_true, contents_own _ _ _ hown]
    · simp only [hd, if_false]; rfl
  refine ⟨fun hi => ?_, fun hi => ?_, fun hi => ?_⟩
  · rw [key, ← map_some_flatMap _ _ (fun k _ => record_some cfg _ _ hpr)]
    simp [hi]
  · rw [← map_some_flatMap _ _ (fun k _ => record_some cfg _ _ hpr),
      ← multiples hL (fun k => (recordOf cfg (after cfg s k) ((k : Nat) * cfg.an.stepTime) p).toList) n, key]
    simp [hi]
  · obtain ⟨x, hx⟩ := record_some cfg s' (n * cfg.an.stepTime) hpr
    rw [key, hx]
    simp [hi]

/-! ### What a record shows -/

/-- Value of the cell `(l, r, c)` in a vector with one value per cell. -/
def cellOf (d : Dims K) (x : List K) (l r c : Nat) : K := x.getD (l * (d.nRows * d.nCols) + r * d.nCols + c) 0

/-- The values of the cells of layer `l`, row after row. -/
def layerOf (d : Dims K) (x : List K) (l : Nat) : List K := x.drop (l * (d.nRows * d.nCols))

/-- **C32** What the records show: a cell point the temperature of its cell, a map the values of the cells of the layer row after row, an
element, a floorplan or a coolant point the requested statistics (C30, C31) of the temperatures of the layer. All but the maps begin
with the time. -/
theorem C32_what_a_record_shows {cfg : Cfg K π} {s : Sim K π} (h : Reachable cfg s) (t : K) (p : Point K) :
    match p.kind with
    | .tcell l r c => l < cfg.d.nLayers → r < cfg.d.nRows → c < cfg.d.nCols →
        recordOf cfg s t p = some (.line t [cellOf cfg.d s.temps l r c])
    | .tmap l => l < cfg.d.nLayers →
        recordOf cfg s t p = some (.map ((List.range cfg.d.nRows).map fun r => (List.range cfg.d.nCols).map fun c => cellOf cfg.d s.temps l r c))
    | .pmap l => l < cfg.d.nLayers →
        recordOf cfg s t p = some (.map ((List.range cfg.d.nRows).map fun r => (List.range cfg.d.nCols).map fun c => cellOf cfg.d s.sources l r c))
    | .tflp l els => l < cfg.d.nLayers → 
        (p.quantity = .maximum → recordOf cfg s t p = some (.line t (els.map (maxEl cfg.d (layerOf cfg.d s.temps l))))) ∧
        (p.quantity = .minimum → recordOf cfg s t p = some (.line t (els.map (minEl cfg.d (layerOf cfg.d s.temps l))))) ∧
        (p.quantity = .average → recordOf cfg s t p = some (.line t (els.map (avgEl cfg.d (layerOf cfg.d s.temps l))))) ∧
        (p.quantity = .gradient → recordOf cfg s t p = some (.line t (els.map (gradientEl cfg.d (layerOf cfg.d s.temps l)))))
    | .tflpel l el => l < cfg.d.nLayers →
        (p.quantity = .maximum → recordOf cfg s t p = some (.line t [maxEl cfg.d (layerOf cfg.d s.temps l) el])) ∧
        (p.quantity = .minimum → recordOf cfg s t p = some (.line t [minEl cfg.d (layerOf cfg.d s.temps l) el])) ∧
        (p.quantity = .average → recordOf cfg s t p = some (.line t [avgEl cfg.d (layerOf cfg.d s.temps l) el])) ∧
        (p.quantity = .gradient → recordOf cfg s t p = some (.line t [gradientEl cfg.d (layerOf cfg.d s.temps l) el]))
    | .tcoolant l ch => l < cfg.d.nLayers →
        (p.quantity = .maximum → recordOf cfg s t p = some (.line t [Outlet.maxOut ch cfg.d (layerOf cfg.d s.temps l)])) ∧
        (p.quantity = .minimum → recordOf cfg s t p = some (.line t [Outlet.minOut ch cfg.d (layerOf cfg.d s.temps l)])) ∧
        (p.quantity = .average → recordOf cfg s t p = some (.line t [Outlet.avgOut ch cfg.d (layerOf cfg.d s.temps l)])) ∧
        (p.quantity = .gradient → recordOf cfg s t p = some (.line t [Outlet.gradientOut ch cfg.d (layerOf cfg.d s.temps l)]))
    | .t3d | .none => recordOf cfg s t p = none := by
  have wf := (reachable_good h).wf
  have hoff : ∀ {l r c}, l < cfg.d.nLayers → r < cfg.d.nRows → c < cfg.d.nCols →
      offInStack cfg.d l r c = l * (cfg.d.nRows * cfg.d.nCols) + r * cfg.d.nCols + c := by
    intro l r c hl hr hc
    rw [(wf_off wf hl hr hc).1, wf_area wf]; omega
  have hR := wf.acc.rows
  have hC := wf.acc.cols
  have hlay : ∀ {l}, l < cfg.d.nLayers → ∀ x : List K, fromLayer cfg.d l x = layerOf cfg.d x l := by
    intro l hl x
    unfold fromLayer layerOf
    rw [hoff hl (by omega) (by omega)]; simp
  have hmap : ∀ {l}, l < cfg.d.nLayers → ∀ x : List K, mapRows cfg.d l x =
      (List.range cfg.d.nRows).map fun r => (List.range cfg.d.nCols).map fun c => cellOf cfg.d x l r c := by
    intro l hl x
    unfold mapRows cellOf
    rw [wf_lastRow wf, wf_lastCol wf, hlay hl]
    unfold layerOf
    simp only [List.getD_eq_getElem?_getD, List.getElem?_drop, Nat.add_assoc]
  unfold recordOf render
  cases hk : p.kind <;> simp only
  · intro hl hr hc; rw [hoff hl hr hc]; rfl
  · intro hl; rw [hlay hl]
    refine ⟨?_, ?_, ?_, ?_⟩ <;> intro hq <;> (simp only [hq, flpStat]; exact congrArg (fun x => some (Record.line t x)) (congrFun List.filterMap_eq_map _))
  · intro hl; rw [hlay hl]
    refine ⟨?_, ?_, ?_, ?_⟩ <;> intro hq <;> simp [hq, elStat]
  · intro hl; rw [hmap hl]
  · intro hl; rw [hmap hl]
  · intro hl; rw [hlay hl]
    refine ⟨?_, ?_, ?_, ?_⟩ <;> intro hq <;> simp [hq, outletStat]

/-- **C32 is violated** for the "records carry the simulated time" part by thermal and power maps: the record does not depend on the time. -/
theorem C32_maps_carry_no_time_violated {cfg : Cfg K π} (s : Sim K π) (t t' : K) {p : Point K} (h : ∃ l, p.kind = .tmap l ∨ p.kind = .pmap l) :
    recordOf cfg s t p = recordOf cfg s t' p := by
  obtain ⟨l, h | h⟩ := h <;> simp [recordOf, render, h]

/-! ### The simulation ends -/

theorem loop_of_slot {canOpen : String → Bool} {o : Output K} {cfg : Cfg K π} {s s' : Sim K π} {r : SimResult} (h : SlotRun cfg s r s') :
    (r = .endOfSimulation ∨ r = .solverError → ∃ log, Loop canOpen o cfg (emulateStep cfg) s log s') ∧
    (r = .slotDone → ∀ log s'', Loop canOpen o cfg (emulateStep cfg) s' log s'' → ∃ log', Loop canOpen o cfg (emulateStep cfg) s log' s'') := by
  induction h with
  | stop he hn =>
    exact ⟨fun hr => ⟨_, .stop he hr⟩, fun hr log s'' hl => ⟨_, .again he (by rw [hr]; simp) (by rw [hr]; simp) hl⟩⟩
  | again he _ ih =>
    refine ⟨fun hr => ?_, fun hr log s'' hl => ?_⟩
    · obtain ⟨log, hl⟩ := ih.1 hr
      exact ⟨_, .again he (by simp) (by simp) hl⟩
    · obtain ⟨log', hl'⟩ := ih.2 hr log s'' hl
      exact ⟨_, .again he (by simp) (by simp) hl'⟩

theorem slot_traces {cfg : Cfg K π} {s s' : Sim K π} {r : SimResult} (h : SlotRun cfg s r s') (hr : Ready s) (hd : r = .slotDone) :
    Ready s' ∧ (∀ i : Nat, ((traces s')[i]?.map List.length).getD 0 ≤ ((traces s)[i]?.map List.length).getD 0) ∧
      (s.time % cfg.an.slotLength = 0 → (∀ t ∈ traces s, t ≠ []) ∧ ∀ i : Nat, ((traces s')[i]?.map List.length).getD 0 ≤ ((traces s)[i]?.map List.length).getD 0 - 1) ∧
      (traces s').length = (traces s).length ∧ s'.time % cfg.an.slotLength = 0 := by
  have one : ∀ {s : Sim K π}, Ready s → Succeeded (emulateStep cfg s).1 → 
      (∀ i : Nat, ((traces (emulateStep cfg s).2)[i]?.map List.length).getD 0 ≤ ((traces s)[i]?.map List.length).getD 0) ∧
      (s.time % cfg.an.slotLength = 0 → (∀ t ∈ traces s, t ≠ []) ∧
        ∀ i : Nat, ((traces (emulateStep cfg s).2)[i]?.map List.length).getD 0 ≤ ((traces s)[i]?.map List.length).getD 0 - 1) ∧
      (traces (emulateStep cfg s).2).length = (traces s).length ∧
      ((emulateStep cfg s).1 = .slotDone → (emulateStep cfg s).2.time % cfg.an.slotLength = 0) := by
    intro s hr hs
    obtain ⟨-, -, -, hc⟩ := step_spec (cfg := cfg) hr
    rcases hc with ⟨h5, -⟩ | ⟨h5, -⟩ | ⟨-, h3, h4, ⟨h5, -⟩ | ⟨h5, h6, h7⟩⟩
    · rw [h5] at hs; simp [Succeeded] at hs
    · rw [h5] at hs; simp [Succeeded] at hs
    · rw [h5] at hs; simp [Succeeded] at hs
    · have htr : traces (emulateStep cfg s).2 = if s.time % cfg.an.slotLength = 0 then (traces s).map List.tail else traces s := by
        unfold traces
        rw [h4]
        by_cases hz : s.time % cfg.an.slotLength = 0
        · simp [hz, pop, Function.comp_def]
        · simp [hz]
      rw [htr]
      have tl : ∀ i : Nat, ((List.map List.tail (traces s))[i]?.map List.length).getD 0 = ((traces s)[i]?.map List.length).getD 0 - 1 := by
        intro i
        rw [List.getElem?_map]
        cases (traces s)[i]? <;> simp
      by_cases hz : s.time % cfg.an.slotLength = 0
      · simp only [hz, if_true]
        refine ⟨fun i => by rw [tl]; omega, fun _ => ⟨?_, fun i => (tl i).le⟩, by simp, fun hd => ?_⟩
        · intro t ht
          obtain ⟨e, he, rfl⟩ := List.mem_map.mp ht
          exact h3 hz e he
        · rw [h6]; exact h7.mp hd
      · simp only [hz, if_false]
        exact ⟨fun i => le_rfl, fun h => absurd h id, trivial, fun hd => by rw [h6]; exact h7.mp hd⟩
  induction h with
  | @stop s r s' he hn =>
    subst hd
    have e1 : (emulateStep cfg s).1 = .slotDone := by rw [he]
    have e2 : (emulateStep cfg s).2 = s' := by rw [he]
    have := one hr (by rw [e1]; exact .inr rfl)
    rw [e2] at this
    exact ⟨by rw [← e2]; exact (step_spec hr).1, this.1, this.2.1, this.2.2.1, this.2.2.2 e1⟩
  | @again s s1 r s' he hrun ih =>
    have e1 : (emulateStep cfg s).1 = .stepDone := by rw [he]
    have e2 : (emulateStep cfg s).2 = s1 := by rw [he]
    have h1 := one hr (by rw [e1]; exact .inl rfl)
    rw [e2] at h1
    have hr1 : Ready s1 := by rw [← e2]; exact (step_spec hr).1
    obtain ⟨i1, i2, -, i4, i5⟩ := ih hr1 hd
    exact ⟨i1, fun i => le_trans (i2 i) (h1.1 i), fun hz => ⟨(h1.2.1 hz).1, fun i => le_trans (i2 i) ((h1.2.1 hz).2 i)⟩, i4.trans h1.2.2.1, i5⟩

/-- **C32** A transient simulation of a stack with at least one floorplan element always ends, whatever the solver does. -/
theorem C32_simulation_ends {canOpen : String → Bool} {o : Output K} {cfg : Cfg K π} {rs : List (Raw K (List (FlpEl K)))} {s : Sim K π}
    (h : Started cfg rs s) (ht : cfg.an.type = .transient) (hL : 0 < cfg.an.slotLength) (he : elements s ≠ []) :
    ∃ log s', Emulated canOpen o cfg s log s' := by
  obtain ⟨hr, -, h0, -⟩ := started_spec h
  have wrong : ∀ (s : Sim K π) r s', SlotRun cfg s r s' → Ready s → r ≠ .wrongConfig := by
    intro s r s' hh
    induction hh with
    | @stop s r s' he _ =>
      intro hr hw
      obtain ⟨-, -, -, hc⟩ := step_spec (cfg := cfg) hr
      rw [he] at hc
      rcases hc with ⟨-, h5, -⟩ | ⟨h5, -⟩ | ⟨-, -, -, ⟨h5, -⟩ | ⟨h5, -⟩⟩
      · exact h5 ht
      · rw [hw] at h5; simp at h5
      · rw [hw] at h5; simp at h5
      · rw [hw] at h5; simp [Succeeded] at h5
    | @again s s1 r s' he _ ih =>
      intro hr
      refine ih ?_
      have := (step_spec (cfg := cfg) hr).1
      rwa [he] at this
  have key : ∀ (m : Nat) (s : Sim K π), Reachable cfg s → s.time % cfg.an.slotLength = 0 → 0 < (traces s).length →
      ((traces s)[0]?.map List.length).getD 0 ≤ m → ∃ log s', Loop canOpen o cfg (emulateStep cfg) s log s' := by
    intro m
    induction m with
    | zero =>
      intro s hs hb hl hm
      obtain ⟨r, s1, h1, h2, -⟩ := C11_slot_terminates hL hs
      cases r with
      | endOfSimulation => exact let ⟨log, hh⟩ := (loop_of_slot h1).1 (.inl rfl); ⟨log, s1, hh⟩
      | solverError => exact let ⟨log, hh⟩ := (loop_of_slot h1).1 (.inr rfl); ⟨log, s1, hh⟩
      | stepDone => exact absurd rfl h2
      | wrongConfig => exact absurd rfl (wrong _ _ _ h1 (reachable_ready hs))
      | slotDone =>
        exfalso
        have := ((slot_traces h1 (reachable_ready hs) rfl).2.2.1 hb).1 _ (List.getElem_mem hl)
        rw [List.getElem?_eq_getElem hl] at hm
        exact this (List.length_eq_zero_iff.mp (by simpa using hm))
    | succ m ih =>
      intro s hs hb hl hm
      obtain ⟨r, s1, h1, h2, -⟩ := C11_slot_terminates hL hs
      cases r with
      | endOfSimulation => exact let ⟨log, hh⟩ := (loop_of_slot h1).1 (.inl rfl); ⟨log, s1, hh⟩
      | solverError => exact let ⟨log, hh⟩ := (loop_of_slot h1).1 (.inr rfl); ⟨log, s1, hh⟩
      | stepDone => exact absurd rfl h2
      | wrongConfig => exact absurd rfl (wrong _ _ _ h1 (reachable_ready hs))
      | slotDone =>
        obtain ⟨-, -, h3, h4, h5⟩ := slot_traces h1 (reachable_ready hs) rfl
        have h6 := (h3 hb).2 0
        obtain ⟨log, s2, h7⟩ := ih s1 (reachable_slot h1 hs) h5 (by omega) (by omega)
        obtain ⟨log', h8⟩ := (loop_of_slot h1).2 rfl log s2 h7
        exact ⟨log', s2, h8⟩
  obtain ⟨log, s', hl⟩ := key _ s ⟨rs, s, [], h, rfl⟩ (by rw [h0, Nat.zero_mod]) (by
    unfold traces; rw [List.length_map]; exact List.length_pos_of_ne_nil he) le_rfl
  exact ⟨_, s', emulateStep cfg, log, by unfold emulateFn; rw [ht], hl, rfl⟩

theorem update_time (d : Dims K) (s : Sim K π) : (updateSourceVector d s).1.time = s.time := by
  unfold updateSourceVector
  generalize updateFrom s.g d s.topTcs s.botTcs s.g.nLayers 0 0 s.flps (List.replicate d.nCells 0) = r
  rfl

theorem steady_forms {cfg : Cfg K π} (s : Sim K π) (ht : cfg.an.type = .steady) :
    emulateSteady cfg s = (.solverError, s) ∨ emulateSteady cfg s = (.endOfSimulation, (updateSourceVector cfg.d s).1) ∨
    emulateSteady cfg s =
      (match cfg.solve (updateSourceVector cfg.d s).1.mat (fillSystemVectorSteady cfg (updateSourceVector cfg.d s).1) with
        | none => (.solverError, { (updateSourceVector cfg.d s).1 with temps := fillSystemVectorSteady cfg (updateSourceVector cfg.d s).1 })
        | some x => (.endOfSimulation, { (updateSourceVector cfg.d s).1 with temps := x })) := by
  unfold emulateSteady
  rw [if_neg (by simp [ht])]
  cases htop : s.g.top with
  | none =>
    cases h2 : (updateSourceVector cfg.d s).2 with
    | false => exact .inr (.inl (by simp only [h2]; rfl))
    | true =>
      refine .inr (.inr ?_)
      simp only [h2, if_true]
      generalize cfg.solve (updateSourceVector cfg.d s).1.mat _ = o
      cases o <;> rfl
  | some tt =>
    cases tt with
    | ambient sk =>
      cases h2 : (updateSourceVector cfg.d s).2 with
      | false => exact .inr (.inl (by simp only [h2]; rfl))
      | true =>
        refine .inr (.inr ?_)
        simp only [h2, if_true]
        generalize cfg.solve (updateSourceVector cfg.d s).1.mat _ = o
        cases o <;> rfl
    | pluggable sp m => exact .inl rfl

theorem steady_cases {cfg : Cfg K π} (s s1 : Sim K π) (b : List K) (m : Option (List K)) (q : SimResult × Sim K π) (hu : s1.time = s.time)
  (he : q = (.solverError, s) ∨ q = (.endOfSimulation, s1) ∨
    q = (match m with
        | none => (.solverError, { s1 with temps := b })
        | some x => (.endOfSimulation, { s1 with temps := x }))) :
    (q.1 = .endOfSimulation ∨ q.1 = .solverError) ∧ q.2.time = s.time := by
  rcases he with he | he | he
  · rw [he]; exact ⟨.inr rfl, rfl⟩
  · rw [he]; exact ⟨.inl rfl, hu⟩
  · rw [he]
    cases m with
    | none => exact ⟨.inr rfl, hu⟩
    | some x => exact ⟨.inl rfl, hu⟩

theorem steady_result {cfg : Cfg K π} (s : Sim K π) (ht : cfg.an.type = .steady) :
    ((emulateSteady cfg s).1 = .endOfSimulation ∨ (emulateSteady cfg s).1 = .solverError) ∧ (emulateSteady cfg s).2.time = s.time :=
  steady_cases (cfg := cfg) s (updateSourceVector cfg.d s).1 (fillSystemVectorSteady cfg (updateSourceVector cfg.d s).1)
    (cfg.solve (updateSourceVector cfg.d s).1.mat (fillSystemVectorSteady cfg (updateSourceVector cfg.d s).1))
    (emulateSteady cfg s) (update_time cfg.d s) (steady_forms s ht)

/-- **C32** Steady simulations: nothing is written at steps and slots; the final points are written once, at time 0. -/
theorem C32_steady {canOpen : String → Bool} {cfg : Cfg K π} {rs : List (Raw K (List (FlpEl K)))} {s s' : Sim K π} (h : Started cfg rs s)
    (ht : cfg.an.type = .steady) {ps : List (Point K)} (hs : ∀ p ∈ ps, Sound p) (ho : ∀ p ∈ ps, p.kind = .t3d ∨ canOpen p.file = true) {log : Log K}
    (he : Emulated canOpen (addPoints ps) cfg s log s') :
    s' = (emulateSteady cfg s).2 ∧ log = entries cfg s' 0 (ofInstant .final ps) := by
  obtain ⟨hr, -, h0, -⟩ := started_spec h
  obtain ⟨f, log1, h1, h2, h3⟩ := he
  have hf : f = emulateSteady cfg := by unfold emulateFn at h1; rw [ht] at h1; simpa using h1.symm
  subst hf
  have hres := steady_result s ht
  cases h2 with
  | @stop _ r _ h4 h5 =>
    have e1 : (emulateSteady cfg s).2 = s' := by rw [h4]
    refine ⟨e1.symm, ?_⟩
    rw [h3, outputNow_sound s' hs ho (by simp)]
    have : s'.time = 0 := by rw [← e1, hres.2, h0]
    rw [this]
    rcases h5 with rfl | rfl <;> simp [afterCall]
  | again h4 h5 h6 _ =>
    exfalso
    rw [h4] at hres
    rcases hres.1 with h7 | h7
    · exact h5 h7
    · exact h6 h7

/-! ### Example: a step point, a slot point and a final point on the demonstration stack -/

def demoPoints : List (Point ℚ) :=
  [⟨.slot, .tflpel 0 (demoEl "a" []), .maximum, "slot.txt"⟩, ⟨.step, .tcell 0 0 0, .none, "step.txt"⟩, ⟨.final, .tmap 0, .none, "map.txt"⟩]

/-- Non-vacuity: two slots of three steps: six records, two records, one record. -/
example : ∃ log s', Emulated (fun _ => true) (addPoints demoPoints) (demoCfg .transient 3) (demoSim .transient 3 [1, 2] [4, 5, 6]) log s' ∧
    (contents log "step.txt").length = 6 ∧ (contents log "slot.txt").length = 2 ∧ (contents log "map.txt").length = 1 := by
  have hst := demo_started .transient 3 [1, 2] [4, 5, 6]
  obtain ⟨log, s', he⟩ := C32_simulation_ends (canOpen := fun _ => true) (o := addPoints demoPoints) hst rfl (by decide)
    (by rw [demo_elements]; simp)
  refine ⟨log, s', he, ?_⟩
  have hs : ∀ p ∈ demoPoints, Sound p := by
    intro p hp
    simp only [demoPoints, List.mem_cons, List.not_mem_nil, or_false] at hp
    rcases hp with rfl | rfl | rfl <;> simp [Sound]
  have htr : traces (demoSim .transient 3 [1, 2] [4, 5, 6]) = [[1, 2], [4, 5, 6]] := by simp [traces, demo_elements, demoEl]
  have hW : ∃ t ∈ traces (demoSim .transient 3 [1, 2] [4, 5, 6]), t.length * (demoCfg .transient 3).an.slotLength < 2 ^ 32 := by
    rw [htr]; exact ⟨[1, 2], by simp, by simp [demoCfg]⟩
  obtain ⟨n, a, b, c, e⟩ := C32_records_of_a_point hst rfl (by decide) hs (fun _ _ => Or.inr rfl) hW he
  have hn : n = 6 := by
    have hb : (emulateStep (demoCfg .transient 3) (after (demoCfg .transient 3) (demoSim .transient 3 [1, 2] [4, 5, 6]) n)).1 = .endOfSimulation := by
      rcases b with b | b
      · exact b
      · exact absurd b (step_healthy (demo_healthy .transient 3) (ready_run _ (started_spec hst).1))
    obtain ⟨⟨t, ht, h1⟩, h2⟩ := C32_run_length (canOpen := fun _ => true) hst rfl (by decide) hW a hb
    rw [htr] at ht h2
    have h3 := h2 [1, 2] (by simp)
    have hL : (demoCfg .transient 3).an.slotLength = 3 := rfl
    rw [hL] at h1 h3
    simp only [List.mem_cons, List.not_mem_nil, or_false] at ht
    simp only [List.length_cons, List.length_nil] at h3
    rcases ht with rfl | rfl <;> simp at h1 <;> omega
  subst hn
  have own : ∀ p ∈ demoPoints, Own demoPoints p ∧ Prints p := by
    intro p hp
    simp only [demoPoints, List.mem_cons, List.not_mem_nil, or_false] at hp
    rcases hp with rfl | rfl | rfl <;> simp [Own, Prints, Sound, demoPoints]
  have p1 := e _ (own ⟨.step, .tcell 0 0 0, .none, "step.txt"⟩ (by simp [demoPoints])).1 (own _ (by simp [demoPoints])).2
  have p2 := e _ (own ⟨.slot, .tflpel 0 (demoEl "a" []), .maximum, "slot.txt"⟩ (by simp [demoPoints])).1 (own _ (by simp [demoPoints])).2
  have p3 := e _ (own ⟨.final, .tmap 0, .none, "map.txt"⟩ (by simp [demoPoints])).1 (own _ (by simp [demoPoints])).2
  have q1 := congrArg List.length (p1.1 rfl)
  have q2 := congrArg List.length (p2.2.1 rfl)
  have q3 := congrArg List.length (p3.2.2 rfl)
  have hL : (demoCfg .transient 3).an.slotLength = 3 := rfl
  rw [hL] at q2
  simp only [List.length_map, List.length_range, List.length_singleton] at q1 q2 q3
  exact ⟨q1, q2, q3⟩

end Verif.Out
