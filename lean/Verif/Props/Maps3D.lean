import Verif.Props.ProgramNuValues
import Verif.Props.ProgramNuAccept
import Verif.Props.ProgramPoints

/-! # C76: the files of the 3D maps

A point `T3d ("file", when)` asks for the temperatures of the whole chip, after every step, after every slot or at the end. Each map goes to a
file of its own, whose name the program makes from the one of the stack file. -/

set_option linter.unusedSectionVars false
set_option linter.unusedSimpArgs false
set_option linter.unusedVariables false

namespace Verif.Prog
open Verif.Gram Verif.Dim Verif.TG Verif.SM Verif.Stk Verif.FE Verif.Emu Verif.Flp

variable {π : Type}

/-! ### Specification -/

/-- A file name up to its first dot. -/
def stem (file : String) : List Char := file.toList.takeWhile (· ≠ '.')

/-- The name of the `k`-th map. -/
def numbered (file : String) (k : Nat) : String := String.ofList (stem file) ++ toString k ++ ".vtk"

/-- The part of the name before the dot does not end with a digit. -/
def NoDigit (file : String) : Prop := ∀ c ∈ (stem file).getLast?, c.isDigit = false

/-- A 3D map of a point of the stack file with these maps is not taken for a file of another point: another point with numbered maps has another
name, the other files are not called like a map. -/
def KeepsOff (file : String) : PointD → Prop
  | .t3d g .step => stem g ≠ stem file ∧ NoDigit g
  | .t3d g .slot => stem g ≠ stem file ∧ NoDigit g
  | y => ∀ k, fileOf y ≠ numbered file k

/-- The same for a point whose only map is written at the end. -/
def KeepsOffLast (file : String) : PointD → Prop
  | .t3d g .step => ∀ k, numbered g k ≠ file
  | .t3d g .slot => ∀ k, numbered g k ≠ file
  | y => fileOf y ≠ file

/-- The map of the whole chip in a state: the boxes of all the cells, with their temperatures. -/
def solidOf (G : NU.Grid ℚ) (x : NU.NSim ℚ π) : Content :=
  .solid (G.cells.map fun c => (c, (G.d.heights.take c.layer).sum, G.d.heights.getD c.layer 0)) ((List.range G.cells.length).map fun i => x.temps.getD i 0)

/-- The name of a file with the positions of the cells of an element. -/
def IsAxes (f : String) : Prop := ∃ el, f = "xyaxis_" ++ el ++ ".txt"

/-! ### Names -/

/-- The file to which a point writes. -/
def nameAt (x : PointD) (step slotLength : Nat) : String :=
  match x with
  | .t3d f w => vtkFile f w step slotLength
  | x => fileOf x

theorem toString_list (n : Nat) : (toString n).toList = Nat.toDigits 10 n := Nat.toList_repr

theorem numbered_list (f : String) (k : Nat) : (numbered f k).toList = stem f ++ Nat.toDigits 10 k ++ ['.', 'v', 't', 'k'] := by
  unfold numbered
  rw [String.toList_append, String.toList_append, toString_list, String.toList_ofList]
  rfl

theorem digits_inj {a b : Nat} (h : Nat.toDigits 10 a = Nat.toDigits 10 b) : a = b := by
  have := congrArg (fun l => Nat.ofDigitChars 10 l 0) h
  simpa [Nat.ofDigitChars_ten_toDigits] using this

theorem numbered_inj {f : String} {a b : Nat} (h : numbered f a = numbered f b) : a = b := by
  have h := congrArg String.toList h
  rw [numbered_list, numbered_list] at h
  exact digits_inj (List.append_cancel_left (List.append_cancel_right h))

theorem strip_digits {p q : List Char} {a b : List Char} (ha : ∀ c ∈ a, c.isDigit = true) (hb : ∀ c ∈ b, c.isDigit = true)
    (hp : ∀ c ∈ p.getLast?, c.isDigit = false) (hq : ∀ c ∈ q.getLast?, c.isDigit = false) (h : p ++ a = q ++ b) : p = q := by
  have key : ∀ (p a : List Char), (∀ c ∈ a, c.isDigit = true) → (∀ c ∈ p.getLast?, c.isDigit = false) →
      (p ++ a).reverse.dropWhile Char.isDigit = p.reverse := by
    intro p a ha hp
    rw [List.reverse_append, List.dropWhile_append_of_pos (by simpa using ha)]
    rcases p.eq_nil_or_concat with rfl | ⟨p', c, rfl⟩
    · rfl
    · have := hp c (by simp)
      rw [List.concat_eq_append, List.reverse_append, List.reverse_singleton, List.singleton_append, List.dropWhile_cons_of_neg (by simp [this])]
  have := key p a ha hp
  rw [h, key q b hb hq] at this
  exact (List.reverse_injective this).symm

theorem digits_digit {n : Nat} : ∀ c ∈ Nat.toDigits 10 n, c.isDigit = true := fun c h => Nat.isDigit_of_mem_toDigits (by norm_num) (by norm_num) h

/-- **C76 (names)** Maps of points with different names, not ending with a digit, have different names. -/
theorem C76_names {f g : String} (hf : NoDigit f) (hg : NoDigit g) {a b : Nat} (h : numbered f a = numbered g b) : stem f = stem g ∧ a = b := by
  have h := congrArg String.toList h
  rw [numbered_list, numbered_list] at h
  have h := List.append_cancel_right h
  have e := strip_digits digits_digit digits_digit hf hg h
  rw [e] at h
  exact ⟨e, digits_inj (List.append_cancel_left h)⟩

theorem axes_numbered {f : String} {k : Nat} : ¬ IsAxes (numbered f k) := by
  rintro ⟨el, h⟩
  have h := congrArg (fun s => s.toList.getLast?) h
  simp only [numbered_list, String.toList_append, List.getLast?_append] at h
  have e : ".txt".toList.getLast? = some 't' := by decide
  rw [e] at h
  simp at h

theorem vtk_step (f : String) (k L : Nat) : vtkFile f .step k L = numbered f k := rfl
theorem vtk_slot (f : String) (k L : Nat) : vtkFile f .slot k L = numbered f (k / L) := rfl

theorem keeps_off {f : String} (hf : NoDigit f) {y : PointD} (h : KeepsOff f y) (j L k : Nat) : nameAt y j L ≠ numbered f k := by
  unfold KeepsOff at h
  cases y with
  | t3d g w =>
    cases w with
    | step => exact fun e => h.1 (C76_names h.2 hf e).1
    | slot => exact fun e => h.1 (C76_names h.2 hf e).1
    | final => exact h k
    | unsaid => exact h k
  | tcell => exact h k
  | tflp => exact h k
  | tflpel => exact h k
  | tmap => exact h k
  | pmap => exact h k
  | tcoolant => exact h k

theorem keeps_off_last {f : String} {y : PointD} (h : KeepsOffLast f y) (j L : Nat) : nameAt y j L ≠ f := by
  unfold KeepsOffLast at h
  cases y with
  | t3d g w =>
    cases w with
    | step => exact h j
    | slot => exact h (j / L)
    | final => exact h
    | unsaid => exact h
  | tcell => exact h
  | tflp => exact h
  | tflpel => exact h
  | tmap => exact h
  | pmap => exact h
  | tcoolant => exact h

/-! ### What a file contains -/

theorem contents_last {N : String} {c : Content} (l0 l l' : NLog) (h1 : ∃ e ∈ l, e.file = N) (h2 : ∀ e ∈ l, e.file = N → e = ⟨N, false, c⟩)
    (h3 : ∀ e ∈ l', e.file ≠ N) : contentsNU N (l0 ++ (l ++ l')) = [c] := by
  induction l using List.reverseRecOn generalizing l' with
  | nil => obtain ⟨e, he, -⟩ := h1; cases he
  | append_singleton l a ih =>
    by_cases ha : a.file = N
    · obtain rfl := h2 a (by simp) ha
      rw [List.append_assoc, ← List.append_assoc]
      exact C71_replaced N (l0 ++ l) l' c fun y hy => h3 y hy
    · rw [List.append_assoc]
      refine ih ([a] ++ l') ?_ (fun e he => h2 e (by simp [he])) ?_
      · obtain ⟨e, he, hN⟩ := h1
        rcases List.mem_append.mp he with he | he
        · exact ⟨e, he, hN⟩
        · rw [List.mem_singleton] at he; subst he; exact absurd hN ha
      · intro e he
        rcases List.mem_append.mp he with he | he
        · rw [List.mem_singleton] at he; subst he; exact ha
        · exact h3 e he

variable {w : World π} {file : String} {s : StackD} {D : Desc NFlps} {an : Analysis ℚ} {G : NU.Grid ℚ} {s0 s' : NU.NSim ℚ π} {log : NLog}

/-- A write of a point goes to its file, or to that of the positions of an element. -/
theorem write_file {canOpen : String → Bool} {files : Files} {temps sources : List ℚ} {time : ℚ} {step slotLength : Nat} {x : PointD} {l : NLog}
    (h : DocWrites canOpen files s G temps sources time step slotLength x l) : ∀ e ∈ l, e.file = nameAt x step slotLength ∨ IsAxes e.file := by
  have hmap : ∀ {v : List ℚ} {el f : String}, MapWrites canOpen s G v el f l → ∀ e ∈ l, e.file = f ∨ IsAxes e.file := by
    rintro v el f (⟨-, lay, is, rows, -, -, -, rfl⟩ | ⟨-, rfl⟩)
    · intro e he
      simp only [List.mem_cons, List.not_mem_nil, or_false] at he
      rcases he with rfl | rfl
      · exact .inr ⟨el, rfl⟩
      · exact .inl rfl
    · intro e he
      rw [List.mem_singleton] at he; subst he; exact .inl rfl
  have hone : ∀ {r : Content} {f : String} {b : Bool}, l = [⟨f, b, r⟩] → ∀ e ∈ l, e.file = f ∨ IsAxes e.file := by
    rintro r f b rfl e he
    rw [List.mem_singleton] at he; subst he; exact .inl rfl
  cases x with
  | t3d f wh => exact hone h
  | tmap el f wh => exact hmap h
  | pmap el f wh => exact hmap h
  | tcell => obtain ⟨r, -, h⟩ := h; exact hone h
  | tflp => obtain ⟨r, -, h⟩ := h; exact hone h
  | tflpel => obtain ⟨r, -, h⟩ := h; exact hone h
  | tcoolant => obtain ⟨r, -, h⟩ := h; exact hone h

theorem mem_block {α β : Type} {r : α → List β → Prop} {as : List α} {ls : List (List β)} (h : List.Forall₂ r as ls) {e : β} (he : e ∈ ls.flatten) :
    ∃ a ∈ as, ∃ l, r a l ∧ e ∈ l := by
  induction h with
  | nil => cases he
  | @cons a l as ls h1 h2 ih =>
    rw [List.flatten_cons, List.mem_append] at he
    rcases he with he | he
    · exact ⟨a, by simp, l, h1, he⟩
    · obtain ⟨a', h3, h4⟩ := ih he
      exact ⟨a', by simp [h3], h4⟩

theorem block_has {α β : Type} {r : α → List β → Prop} {as : List α} {ls : List (List β)} (h : List.Forall₂ r as ls) {a : α} (ha : a ∈ as) :
    ∃ l, r a l ∧ ∀ e ∈ l, e ∈ ls.flatten := by
  induction h with
  | nil => cases ha
  | @cons a' l as ls h1 h2 ih =>
    rcases List.mem_cons.mp ha with rfl | ha
    · exact ⟨l, h1, fun e he => by simp [he]⟩
    · obtain ⟨l', h3, h4⟩ := ih ha
      exact ⟨l', h3, fun e he => by rw [List.flatten_cons, List.mem_append]; exact .inr (h4 e he)⟩

/-- The points of an instant write nothing to a file that is the one of none of them. -/
theorem block_off {canOpen : String → Bool} {files : Files} {i : Out.Instant} {x : NU.NSim ℚ π} {time : ℚ} {step L : Nat} {l : NLog}
    (h : DocAll canOpen files s i G x time step L l) {N : String} (hN : ¬ IsAxes N) (ho : ∀ y ∈ pointsOn s i, nameAt y step L ≠ N) :
    ∀ e ∈ l, e.file ≠ N := by
  obtain ⟨ls, h1, rfl⟩ := h
  intro e he
  obtain ⟨y, hy, l, hl, he⟩ := mem_block h1 he
  rcases write_file hl e he with h | h
  · rw [h]; exact ho y hy
  · exact fun h' => hN (h' ▸ h)

/-- They write the map of one of them to its file, if no other writes there. -/
theorem block_map {canOpen : String → Bool} {files : Files} {i : Out.Instant} {x : NU.NSim ℚ π} {time : ℚ} {step L : Nat} {l : NLog}
    (h : DocAll canOpen files s i G x time step L l) {f : String} {wh : WhenD} (hx : .t3d f wh ∈ pointsOn s i) (hN : ¬ IsAxes (vtkFile f wh step L))
    (ho : ∀ y ∈ pointsOn s i, y ≠ .t3d f wh → nameAt y step L ≠ vtkFile f wh step L) :
    (∃ e ∈ l, e.file = vtkFile f wh step L) ∧ ∀ e ∈ l, e.file = vtkFile f wh step L → e = ⟨vtkFile f wh step L, false, solidOf G x⟩ := by
  obtain ⟨ls, h1, rfl⟩ := h
  constructor
  · obtain ⟨l, hl, hm⟩ := block_has h1 hx
    have hl : l = [⟨vtkFile f wh step L, false, solidOf G x⟩] := hl
    exact ⟨_, hm _ (by rw [hl, List.mem_singleton]), rfl⟩
  · intro e he hf
    obtain ⟨y, hy, l, hl, he⟩ := mem_block h1 he
    by_cases hyx : y = .t3d f wh
    · subst hyx
      have hl : l = [⟨vtkFile f wh step L, false, solidOf G x⟩] := hl
      rw [hl, List.mem_singleton] at he
      exact he
    · rcases write_file hl e he with h | h
      · exact absurd (h.symm.trans hf) (ho y hy hyx)
      · exact absurd (hf ▸ h) hN

theorem on_step {y : PointD} (h : y ∈ pointsOn s .step) : y ∈ s.points ∧ whenOf y = .step := by
  simpa [pointsOn] using h
theorem on_slot {y : PointD} (h : y ∈ pointsOn s .slot) : y ∈ s.points ∧ whenOf y = .slot := by
  simpa [pointsOn] using h
theorem on_final {y : PointD} (h : y ∈ pointsOn s .final) : y ∈ s.points ∧ (whenOf y = .final ∨ whenOf y = .unsaid) := by
  simpa [pointsOn] using h

theorem range_cut {n k : Nat} (h : k < n) : List.range n = List.range k ++ (k :: (List.range (n - (k + 1))).map (k + 1 + ·)) := by
  have e : n = (k + 1) + (n - (k + 1)) := by omega
  conv_lhs => rw [e]
  rw [List.range_add, List.range_succ, List.append_assoc]
  rfl

/-! ### Theorems -/

/-- The steps that a run makes, and how it stops. -/
def MadeSteps (w : World π) (an : Analysis ℚ) (s0 : NU.NSim ℚ π) (n : Nat) : Prop :=
  (∀ k, k < n → Succeeded (NU.stepNU (configNU w an) (NU.afterSteps (configNU w an) s0 k)).1) ∧
    ((NU.stepNU (configNU w an) (NU.afterSteps (configNU w an) s0 n)).1 = .endOfSimulation ∨
      (NU.stepNU (configNU w an) (NU.afterSteps (configNU w an) s0 n)).1 = .solverError)

/-- **C76 (step)** The map of every step stays in the file with its number. -/
theorem C76_step (h : SessionNU w file s D an G s0 log s') (hs : Sensible w.eff (filesOf w.read) s) (hg : GoodDivision (filesOf w.read) s)
    (hm : ∀ x, w.mul10 x = x * 10) {step slot : ℚ} (ht : s.solver.kind = some (step, slot))
    (hW : ∃ t ∈ filePowers (filesOf w.read) s, t.length * an.slotLength < 2 ^ 32)
    {f : String} (hf : .t3d f .step ∈ s.points) (hd : NoDigit f) (ho : ∀ y ∈ s.points, y ≠ .t3d f .step → KeepsOff f y) :
    ∃ n, MadeSteps w an s0 n ∧ ∀ k, k < n →
      contentsNU (numbered f (k + 1)) (buildLog D ++ log) = [solidOf G (NU.afterSteps (configNU w an) s0 (k + 1))] := by
  obtain ⟨n, h1, h2, h3, steps, slots, final, rfl, h5, h6, h7⟩ := C71_transient h hs hg hm ht hW
  refine ⟨n, ⟨h1, h2⟩, fun k hk => ?_⟩
  obtain ⟨b1, b2⟩ := block_map (h5 k hk) (f := f) (wh := .step) (by simp [pointsOn, hf, whenOf]) axes_numbered
    (fun y hy hyx => keeps_off hd (ho y (on_step hy).1 hyx) _ _ _)
  have off : ∀ (i : Out.Instant) (x : NU.NSim ℚ π) (t : ℚ) (j : Nat) (l : NLog), DocAll w.canOpen (filesOf w.read) s i G x t j an.slotLength l →
      (i = .step → j ≠ k + 1) → ∀ e ∈ l, e.file ≠ numbered f (k + 1) := by
    intro i x t j l hl hj
    refine block_off hl axes_numbered fun y hy => ?_
    by_cases hyx : y = .t3d f .step
    · subst hyx
      cases i with
      | step => exact fun e => hj rfl (numbered_inj (f := f) e)
      | slot => exact absurd (on_slot hy).2 (by simp [whenOf])
      | final => exact absurd (on_final hy).2 (by simp [whenOf])
      | none => simp [pointsOn] at hy
    · exact keeps_off hd (ho y (List.mem_of_mem_filter hy) hyx) _ _ _
  rw [range_cut hk, List.flatMap_append, List.flatMap_cons]
  have e : ∀ a b c d r t : NLog, a ++ (b ++ (c ++ d ++ r) ++ t) = (a ++ b) ++ (c ++ (d ++ r ++ t)) := by intros; simp
  rw [e]
  refine contents_last _ _ _ b1 b2 fun e he => ?_
  rcases List.mem_append.mp he with he | he
  · rcases List.mem_append.mp he with he | he
    · split_ifs at he with hdv
      · exact off _ _ _ _ _ (h6 k hk hdv) (by simp) e he
      · cases he
    · obtain ⟨j, hj, he⟩ := List.mem_flatMap.mp he
      obtain ⟨a, ha, rfl⟩ := List.mem_map.mp hj
      have ha := List.mem_range.mp ha
      have hlt : k + 1 + a < n := by omega
      rcases List.mem_append.mp he with he | he
      · exact off _ _ _ _ _ (h5 _ hlt) (fun _ => by omega) e he
      · split_ifs at he with hdv
        · exact off _ _ _ _ _ (h6 _ hlt hdv) (by simp) e he
        · cases he
  · exact off _ _ _ _ _ h7 (by simp) e he

/-- **C76 (slot)** The map of the end of every slot stays in the file with the number of the slot. -/
theorem C76_slot (h : SessionNU w file s D an G s0 log s') (hs : Sensible w.eff (filesOf w.read) s) (hg : GoodDivision (filesOf w.read) s)
    (hm : ∀ x, w.mul10 x = x * 10) {step slot : ℚ} (ht : s.solver.kind = some (step, slot))
    (hW : ∃ t ∈ filePowers (filesOf w.read) s, t.length * an.slotLength < 2 ^ 32)
    {f : String} (hf : .t3d f .slot ∈ s.points) (hd : NoDigit f) (ho : ∀ y ∈ s.points, y ≠ .t3d f .slot → KeepsOff f y) :
    ∃ n, MadeSteps w an s0 n ∧ ∀ k, (k + 1) * an.slotLength ≤ n → 0 < an.slotLength →
      contentsNU (numbered f (k + 1)) (buildLog D ++ log) = [solidOf G (NU.afterSteps (configNU w an) s0 ((k + 1) * an.slotLength))] := by
  obtain ⟨n, h1, h2, h3, steps, slots, final, rfl, h5, h6, h7⟩ := C71_transient h hs hg hm ht hW
  refine ⟨n, ⟨h1, h2⟩, fun k' hk' hL => ?_⟩
  generalize hL' : an.slotLength = L at *
  obtain ⟨k, hk⟩ : ∃ k, (k' + 1) * L = k + 1 := ⟨(k' + 1) * L - 1, (Nat.succ_pred_eq_of_pos (Nat.mul_pos (Nat.succ_pos k') hL)).symm⟩
  have hdv : L ∣ k + 1 := ⟨k' + 1, by rw [← hk, Nat.mul_comm]⟩
  have hq : (k + 1) / L = k' + 1 := by rw [← hk, Nat.mul_div_cancel _ hL]
  rw [hk] at hk' ⊢
  have hkn : k < n := by omega
  have b := block_map (h6 k hkn hdv) (f := f) (wh := .slot) (by simp [pointsOn, hf, whenOf]) axes_numbered
    (fun y hy hyx => keeps_off hd (ho y (on_slot hy).1 hyx) _ _ _)
  rw [vtk_slot, hq] at b
  have off : ∀ (i : Out.Instant) (x : NU.NSim ℚ π) (t : ℚ) (j : Nat) (l : NLog), DocAll w.canOpen (filesOf w.read) s i G x t j L l →
      (i = .slot → j / L ≠ k' + 1) → ∀ e ∈ l, e.file ≠ numbered f (k' + 1) := by
    intro i x t j l hl hj
    refine block_off hl axes_numbered fun y hy => ?_
    by_cases hyx : y = .t3d f .slot
    · subst hyx
      cases i with
      | slot => exact fun e => hj rfl (numbered_inj (f := f) e)
      | step => exact absurd (on_step hy).2 (by simp [whenOf])
      | final => exact absurd (on_final hy).2 (by simp [whenOf])
      | none => simp [pointsOn] at hy
    · exact keeps_off hd (ho y (List.mem_of_mem_filter hy) hyx) _ _ _
  rw [range_cut hkn, List.flatMap_append, List.flatMap_cons, if_pos hdv]
  have e : ∀ a b c d r t : NLog, a ++ (b ++ (c ++ d ++ r) ++ t) = (a ++ b ++ c) ++ (d ++ (r ++ t)) := by intros; simp
  rw [e]
  refine contents_last _ _ _ b.1 b.2 fun e he => ?_
  rcases List.mem_append.mp he with he | he
  · obtain ⟨j, hj, he⟩ := List.mem_flatMap.mp he
    obtain ⟨a, ha, rfl⟩ := List.mem_map.mp hj
    have ha := List.mem_range.mp ha
    have hlt : k + 1 + a < n := by omega
    rcases List.mem_append.mp he with he | he
    · exact off _ _ _ _ _ (h5 _ hlt) (by simp) e he
    · split_ifs at he with hdv'
      · refine off _ _ _ _ _ (h6 _ hlt hdv') (fun _ hh => ?_) e he
        have h1 := Nat.div_mul_cancel hdv'
        rw [hh, hk] at h1
        omega
      · cases he
  · exact off _ _ _ _ _ h7 (by simp) e he

/-- **C76 (end)** The map of the end stays in the file of its point, in a transient and in a steady simulation. -/
theorem C76_end (h : SessionNU w file s D an G s0 log s') (hs : Sensible w.eff (filesOf w.read) s) (hg : GoodDivision (filesOf w.read) s)
    (hm : ∀ x, w.mul10 x = x * 10)
    (hW : s.solver.kind ≠ none → ∃ t ∈ filePowers (filesOf w.read) s, t.length * an.slotLength < 2 ^ 32)
    {f : String} {wh : WhenD} (hwh : wh = .final ∨ wh = .unsaid) (hf : .t3d f wh ∈ s.points) (hx : ¬ IsAxes f)
    (ho : ∀ y ∈ s.points, y ≠ .t3d f wh → KeepsOffLast f y) :
    contentsNU f (buildLog D ++ log) = [solidOf G s'] := by
  have hv : ∀ j L, vtkFile f wh j L = f := by rcases hwh with rfl | rfl <;> exact fun _ _ => rfl
  have fin : ∀ (t : ℚ) (j : Nat) (l : NLog), DocAll w.canOpen (filesOf w.read) s .final G s' t j an.slotLength l → ∀ l0, contentsNU f (l0 ++ l) = [solidOf G s'] := by
    intro t j l hl l0
    have b := block_map hl (f := f) (wh := wh) (by rcases hwh with rfl | rfl <;> simp [pointsOn, hf, whenOf]) (by rw [hv]; exact hx)
      (fun y hy hyx => by rw [hv]; exact keeps_off_last (ho y (on_final hy).1 hyx) _ _)
    rw [hv] at b
    have := contents_last l0 l [] b.1 b.2 (by simp)
    rwa [List.append_nil] at this
  cases hk : s.solver.kind with
  | none =>
    exact fin _ _ _ (C71_steady h hs hg hm hk).2 _
  | some p =>
    obtain ⟨step, slot⟩ := p
    obtain ⟨n, h1, h2, h3, steps, slots, final, rfl, h5, h6, h7⟩ := C71_transient h hs hg hm hk (hW (by simp [hk]))
    rw [← List.append_assoc]
    exact fin _ _ _ h7 _

/-- **C76 (violated)** Two points with the same name, one after every step and one after every slot: the file with number `k` ends with the map of the
end of slot `k`; the map of step `k` is not kept. -/
theorem C76_same_name_violated (h : SessionNU w file s D an G s0 log s') (hs : Sensible w.eff (filesOf w.read) s) (hg : GoodDivision (filesOf w.read) s)
    (hm : ∀ x, w.mul10 x = x * 10) {step slot : ℚ} (ht : s.solver.kind = some (step, slot))
    (hW : ∃ t ∈ filePowers (filesOf w.read) s, t.length * an.slotLength < 2 ^ 32)
    {f : String} (hf : .t3d f .step ∈ s.points) (hf' : .t3d f .slot ∈ s.points) (hd : NoDigit f)
    (ho : ∀ y ∈ s.points, y ≠ .t3d f .step → y ≠ .t3d f .slot → KeepsOff f y) :
    ∃ n, MadeSteps w an s0 n ∧ ∀ k, (k + 1) * an.slotLength ≤ n → 0 < an.slotLength →
      contentsNU (numbered f (k + 1)) (buildLog D ++ log) = [solidOf G (NU.afterSteps (configNU w an) s0 ((k + 1) * an.slotLength))] := by
  obtain ⟨n, h1, h2, h3, steps, slots, final, rfl, h5, h6, h7⟩ := C71_transient h hs hg hm ht hW
  refine ⟨n, ⟨h1, h2⟩, fun k' hk' hL => ?_⟩
  generalize hL' : an.slotLength = L at *
  obtain ⟨k, hk⟩ : ∃ k, (k' + 1) * L = k + 1 := ⟨(k' + 1) * L - 1, (Nat.succ_pred_eq_of_pos (Nat.mul_pos (Nat.succ_pos k') hL)).symm⟩
  have hdv : L ∣ k + 1 := ⟨k' + 1, by rw [← hk, Nat.mul_comm]⟩
  have hq : (k + 1) / L = k' + 1 := by rw [← hk, Nat.mul_div_cancel _ hL]
  have hge : k' + 1 ≤ k + 1 := by rw [← hk]; exact Nat.le_mul_of_pos_right _ hL
  rw [hk] at hk' ⊢
  have hkn : k < n := by omega
  have b := block_map (h6 k hkn hdv) (f := f) (wh := .slot) (by simp [pointsOn, hf', whenOf]) axes_numbered
    (fun y hy hyx => keeps_off hd (ho y (on_slot hy).1 (by rintro rfl; exact absurd (on_slot hy).2 (by simp [whenOf])) hyx) _ _ _)
  rw [vtk_slot, hq] at b
  have off : ∀ (i : Out.Instant) (x : NU.NSim ℚ π) (t : ℚ) (j : Nat) (l : NLog), DocAll w.canOpen (filesOf w.read) s i G x t j L l →
      (i = .slot → j / L ≠ k' + 1) → (i = .step → j ≠ k' + 1) → ∀ e ∈ l, e.file ≠ numbered f (k' + 1) := by
    intro i x t j l hl hj hj'
    refine block_off hl axes_numbered fun y hy => ?_
    by_cases hyx : y = .t3d f .slot
    · subst hyx
      cases i with
      | slot => exact fun e => hj rfl (numbered_inj (f := f) e)
      | step => exact absurd (on_step hy).2 (by simp [whenOf])
      | final => exact absurd (on_final hy).2 (by simp [whenOf])
      | none => simp [pointsOn] at hy
    · by_cases hyx' : y = .t3d f .step
      · subst hyx'
        cases i with
        | step => exact fun e => hj' rfl (numbered_inj (f := f) e)
        | slot => exact absurd (on_slot hy).2 (by simp [whenOf])
        | final => exact absurd (on_final hy).2 (by simp [whenOf])
        | none => simp [pointsOn] at hy
      · exact keeps_off hd (ho y (List.mem_of_mem_filter hy) hyx' hyx) _ _ _
  rw [range_cut hkn, List.flatMap_append, List.flatMap_cons, if_pos hdv]
  have e : ∀ a b c d r t : NLog, a ++ (b ++ (c ++ d ++ r) ++ t) = (a ++ b ++ c) ++ (d ++ (r ++ t)) := by intros; simp
  rw [e]
  refine contents_last _ _ _ b.1 b.2 fun e he => ?_
  rcases List.mem_append.mp he with he | he
  · obtain ⟨j, hj, he⟩ := List.mem_flatMap.mp he
    obtain ⟨a, ha, rfl⟩ := List.mem_map.mp hj
    have ha := List.mem_range.mp ha
    have hlt : k + 1 + a < n := by omega
    rcases List.mem_append.mp he with he | he
    · exact off _ _ _ _ _ (h5 _ hlt) (by simp) (fun _ => by omega) e he
    · split_ifs at he with hdv'
      · refine off _ _ _ _ _ (h6 _ hlt hdv') (fun _ hh => ?_) (by simp) e he
        have h1 := Nat.div_mul_cancel hdv'
        rw [hh, hk] at h1
        omega
      · cases he
  · exact off _ _ _ _ _ h7 (by simp) (by simp) e he

theorem stem_dot {f : String} (h : f.toList.head? = some '.') : stem f = [] := by
  unfold stem
  cases hl : f.toList with
  | nil => rfl
  | cons a l =>
    rw [hl] at h
    cases h
    rfl

/-- **C76 (violated)** A file in the current directory written as `./maps/m.vtk`, or in another as `../m.vtk`: the maps go to `1.vtk`, `2.vtk`, …; whatever the
name of the point, no two such points are told apart. -/
theorem C76_relative_violated {f : String} (h : f.toList.head? = some '.') (k : Nat) : numbered f k = toString k ++ ".vtk" := by
  unfold numbered
  rw [stem_dot h]
  rfl

/-- **C76 (violated)** Of such a point, nothing reaches the place that was asked for: if the other points write in the current directory, no file written by
the program has a name that begins with a dot. -/
theorem C76_relative_lost_violated (h : SessionNU w file s D an G s0 log s') (hs : Sensible w.eff (filesOf w.read) s) (hg : GoodDivision (filesOf w.read) s)
    (hm : ∀ x, w.mul10 x = x * 10) {step slot : ℚ} (ht : s.solver.kind = some (step, slot))
    (hW : ∃ t ∈ filePowers (filesOf w.read) s, t.length * an.slotLength < 2 ^ 32)
    (ho : ∀ y ∈ s.points, (∃ f, y = .t3d f .step) ∨ (∃ f, y = .t3d f .slot) ∨ (fileOf y).toList.head? ≠ some '.') :
    ∀ e ∈ buildLog D ++ log, e.file.toList.head? ≠ some '.' := by
  obtain ⟨n, h1, h2, h3, steps, slots, final, rfl, h5, h6, h7⟩ := C71_transient h hs hg hm ht hW
  have num : ∀ (f : String) (k : Nat), (numbered f k).toList.head? ≠ some '.' := by
    intro f k
    rw [numbered_list]
    cases hst : stem f with
    | nil =>
      rw [List.nil_append, List.head?_append]
      cases hd : Nat.toDigits 10 k with
      | nil => exact absurd hd Nat.toDigits_ne_nil
      | cons a l =>
        have := digits_digit (n := k) a (by rw [hd]; simp)
        intro h'
        simp at h'
        subst h'
        exact absurd this (by decide)
    | cons a l =>
      have : a ∈ stem f := by rw [hst]; simp
      have := List.all_eq_true.mp (List.all_takeWhile (p := fun c => decide (c ≠ '.')) (l := f.toList)) a this
      intro h'
      simp at h'
      subst h'
      simp at this
  have off : ∀ (i : Out.Instant) (x : NU.NSim ℚ π) (t : ℚ) (j : Nat) (l : NLog), DocAll w.canOpen (filesOf w.read) s i G x t j an.slotLength l →
      ∀ e ∈ l, e.file.toList.head? ≠ some '.' := by
    rintro i x t j l ⟨ls, hl, rfl⟩ e he
    obtain ⟨y, hy, l, hl, he⟩ := mem_block hl he
    rcases write_file hl e he with h | ⟨el, h⟩
    · rw [h]
      rcases ho y (List.mem_of_mem_filter hy) with ⟨f, rfl⟩ | ⟨f, rfl⟩ | hd
      · exact num f j
      · exact num f (j / an.slotLength)
      · cases y with
        | t3d g wh =>
          cases wh with
          | step => exact num _ _
          | slot => exact num _ _
          | final => exact hd
          | unsaid => exact hd
        | tcell => exact hd
        | tflp => exact hd
        | tflpel => exact hd
        | tmap => exact hd
        | pmap => exact hd
        | tcoolant => exact hd
    · rw [h, String.toList_append, String.toList_append, List.append_assoc]
      have : "xyaxis_".toList = ['x', 'y', 'a', 'x', 'i', 's', '_'] := by decide
      rw [this]
      simp
  intro e he
  rcases List.mem_append.mp he with he | he
  · unfold buildLog at he
    rw [List.mem_singleton] at he
    subst he
    show "conductance_layer.txt".toList.head? ≠ some '.'
    decide
  · rcases List.mem_append.mp he with he | he
    · obtain ⟨j, hj, he⟩ := List.mem_flatMap.mp he
      have hj := List.mem_range.mp hj
      rcases List.mem_append.mp he with he | he
      · exact off _ _ _ _ _ (h5 j hj) e he
      · split_ifs at he with hdv
        · exact off _ _ _ _ _ (h6 j hj hdv) e he
        · cases he
    · exact off _ _ _ _ _ h7 e he

/-- **C76 (violated)** With a uniform grid a 3D map is accepted and never written: all that is written belongs to points of other kinds. -/
theorem C76_uniform_violated {Du : Desc Flps} {x0 x' : Sim ℚ π} {lg : Out.Log ℚ}
    (h : Session w file s Du an x0 lg x') (hs : Sensible w.eff (filesOf w.read) s) (hm : ∀ x, w.mul10 x = x * 10)
    (hW : s.solver.kind ≠ none → ∃ t ∈ filePowers (filesOf w.read) s, t.length * an.slotLength < 2 ^ 32) :
    ∀ e ∈ lg, ∃ y ∈ s.points, e.1 = fileOf y ∧ ∀ g wh, y ≠ .t3d g wh := by
  have hp := C68_points h
  have ent : ∀ (i : Out.Instant) (x : Sim ℚ π) (t : ℚ), ∀ e ∈ Out.entries (config w Du an) x t (Out.ofInstant i (pointsOf Du)),
      ∃ y ∈ s.points, e.1 = fileOf y ∧ ∀ g wh, y ≠ .t3d g wh := by
    intro i x t e he
    obtain ⟨p, hpm, he⟩ := List.mem_flatMap.mp he
    obtain ⟨r, hr, rfl⟩ := List.mem_map.mp he
    have hpm := List.mem_of_mem_filter hpm
    obtain ⟨y, hy, hyp⟩ : ∃ y ∈ s.points, PointShows s Du y p := by
      clear he
      generalize pointsOf Du = ps at hp hpm
      generalize s.points = ys at hp
      induction hp with
      | nil => cases hpm
      | @cons a b as bs h1 h2 ih =>
        rcases List.mem_cons.mp hpm with rfl | hpm
        · exact ⟨a, by simp, h1⟩
        · obtain ⟨y, q1, q2⟩ := ih hpm
          exact ⟨y, by simp [q1], q2⟩
    refine ⟨y, hy, ?_⟩
    cases y with
    | t3d g wh =>
      obtain ⟨-, -, hk⟩ := hyp
      have : Out.recordOf (config w Du an) x t p = none := by simp [Out.recordOf, Out.render, hk]
      rw [this] at hr
      cases hr
    | tcell => exact ⟨hyp.2.1, by simp⟩
    | tflp => exact ⟨hyp.2.2.1, by simp⟩
    | tflpel => exact ⟨hyp.2.2.1, by simp⟩
    | tmap => exact ⟨hyp.2.1, by simp⟩
    | pmap => exact ⟨hyp.2.1, by simp⟩
    | tcoolant => exact ⟨hyp.2.2.1, by simp⟩
  cases hk : s.solver.kind with
  | none =>
    obtain ⟨-, rfl⟩ := C68_steady_outputs h hs hm hk
    exact ent _ _ _
  | some p =>
    obtain ⟨step, slot⟩ := p
    obtain ⟨n, -, -, -, rfl⟩ := C68_transient_outputs h hs hm hk (hW (by simp [hk]))
    intro e he
    rcases List.mem_append.mp he with he | he
    · obtain ⟨j, hj, he⟩ := List.mem_flatMap.mp he
      rcases List.mem_append.mp he with he | he
      · exact ent _ _ _ e he
      · split_ifs at he
        · exact ent _ _ _ e he
        · cases he
    · exact ent _ _ _ e he

end Verif.Prog
