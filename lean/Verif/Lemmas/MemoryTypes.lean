import Verif.Lemmas.MemoryList

/-! The value of each type of object, the blocks it owns, and the laws of its functions. -/

set_option linter.unusedSectionVars false
set_option linter.unusedSimpArgs false
set_option linter.unusedVariables false

namespace Verif.Own

/-- Nothing is owned. -/
def RNone : Rel Unit Unit := fun _ _ _ s => s = ∅

theorem none_local : Local RNone where
  frame r _ := r
  live := by rintro h a v s rfl p hp; simp at hp
theorem none_dest : Dest RNone fun _ => (pure () : M Unit) := by rintro h a v s rfl; exact ⟨(), by rw [minus_empty]; rfl⟩
theorem none_dup : Dup RNone fun _ => (pure () : M Unit) := by rintro h a v s rfl; exact ⟨(), h, ∅, rfl, New.refl h, rfl⟩

/-! ### Materials -/

/-- A material: its name, and the four numbers. -/
abbrev MaterialV := Option String × (ℚ × ℚ × ℚ × ℚ)
def RMaterial : Rel Material MaterialV := RVia (fun m => m.id) (fun m => (m.vhc, m.kx, m.ky, m.kz)) RString

theorem material_lawful : Lawful material RMaterial (none, 0, 0, 0, 0) := by
  refine Lawful.mk' string_local.via (fun h => ⟨Or.inl ⟨rfl, rfl, rfl⟩, rfl⟩) (string_dest.via (fun _ => materialInit) fun a => rfl)
    (fun a h d h' e => result_pure e) ?_ ?_
  · refine string_dup.via (fun a x => ⟨x, a.vhc, a.kx, a.ky, a.kz⟩) (fun _ _ => rfl) (fun _ _ => rfl) fun a => ?_
    simp only [material, materialCopy, materialDestroy, materialInit, stringDestroy, pure_bind]
  · intro d a
    simp only [material, materialCopy, materialDestroy, materialInit, stringDestroy, pure_bind, bind_assoc]

theorem materialDestroy_init : materialDestroy materialInit = pure materialInit := rfl

/-! ### Rectangles, cells, connections -/

abbrev ICElementV := MaterialV × ((ℚ × ℚ × ℚ × ℚ × ℚ × ℚ) × (Nat × Nat × Nat × Nat × Nat × Nat))
def RICElement : Rel ICElement ICElementV := RVia (fun e => e.material)
  (fun e => ((e.swX, e.swY, e.length, e.width, e.discrX, e.discrY), (e.swRow, e.swColumn, e.neRow, e.neColumn, e.indexStart, e.indexEnd))) RMaterial

theorem icElement_lawful : Lawful icElement RICElement ((none, 0, 0, 0, 0), (0, 0, 0, 0, 0, 0), (0, 0, 0, 0, 0, 0)) := by
  refine Lawful.mk' material_lawful.loc.via (fun h => ⟨material_lawful.init h, rfl⟩) (material_lawful.dest.via (fun _ => icInit) fun a => rfl)
    (fun a h d h' e => result_pure e) ?_ ?_
  · exact material_lawful.dup.via (fun a x => ⟨a.swX, a.swY, a.length, a.width, a.discrX, a.discrY, a.swRow, a.swColumn, a.neRow, a.neColumn, a.indexStart, a.indexEnd, x⟩)
      (fun _ _ => rfl) (fun _ _ => rfl) fun a => by
        simp only [icElement, material, icCopy, icDestroy, icInit, materialDestroy_init, pure_bind]
  · intro d a
    simp only [icElement, icCopy, icDestroy, icInit, materialDestroy_init, pure_bind, bind_assoc]

abbrev NCellV := MaterialV × ((Nat × Nat) × (ℚ × ℚ × ℚ × ℚ × ℚ × ℚ))
def RNCell : Rel NCell NCellV := RVia (fun e => e.material) (fun e => ((e.layer, e.isChannel), (e.x, e.y, e.z, e.length, e.width, e.height))) RMaterial

theorem ncell_lawful : Lawful ncell RNCell ((none, 0, 0, 0, 0), (0, 0), (0, 0, 0, 0, 0, 0)) := by
  refine Lawful.mk' material_lawful.loc.via (fun h => ⟨material_lawful.init h, rfl⟩) (material_lawful.dest.via (fun _ => ncellInit) fun a => rfl)
    (fun a h d h' e => result_pure e) ?_ ?_
  · exact material_lawful.dup.via (fun a x => ⟨a.layer, a.x, a.y, a.z, a.length, a.width, a.height, a.isChannel, x⟩)
      (fun _ _ => rfl) (fun _ _ => rfl) fun a => by
        simp only [ncell, material, ncellCopy, ncellDestroy, ncellInit, materialDestroy_init, pure_bind]
  · intro d a
    simp only [ncell, ncellCopy, ncellDestroy, ncellInit, materialDestroy_init, pure_bind, bind_assoc]

abbrev ConnectionV := Unit × ((Nat × Nat × Nat × Nat × Nat) × ℚ)
def RConnection : Rel Connection ConnectionV := RVia (fun _ => ()) (fun c => ((c.node1, c.layer1, c.node2, c.layer2, c.direction), c.value)) RNone

theorem connection_lawful : Lawful connection RConnection ((), (0, 0, 0, 0, 0), 0) := by
  refine Lawful.mk' none_local.via (fun h => ⟨rfl, rfl⟩) (none_dest.via (fun _ => connectionInit) fun a => rfl)
    (fun a h d h' e => by simp only [connection, connectionDestroy, M.pure_apply] at e; cases e; rfl) ?_ (fun d a => rfl)
  exact none_dup.via (fun a _ => ⟨a.node1, a.layer1, a.node2, a.layer2, a.direction, a.value⟩) (fun _ _ => rfl) (fun _ _ => rfl) fun a => rfl

/-! ### Layers -/

abbrev MaterialElementV := (MaterialV × List ICElementV) × Nat
def RMaterialElement : Rel MaterialElement MaterialElementV :=
  RVia (fun e => (e.material, e.elements)) (fun e => e.n) (RPair RMaterial (RList RICElement))

theorem init_pair {α V β W : Type} {A : Rel α V} {B : Rel β W} {h : Heap} {a : α} {b : β} {v : V} {w : W} (x : A h a v ∅) (y : B h b w ∅) :
    RPair A B h (a, b) (v, w) ∅ := ⟨∅, ∅, x, y, by simp, by simp⟩

theorem init_list {α V : Type} {R : Rel α V} (h : Heap) : RList R h listInit [] ∅ := ⟨rfl, rfl, rfl, rfl⟩
theorem init_string (h : Heap) : RString h none none ∅ := Or.inl ⟨rfl, rfl, rfl⟩
theorem init_own {α V : Type} {R : Rel α V} (h : Heap) : ROwn R h none none ∅ := Or.inl ⟨rfl, rfl, rfl⟩

theorem materialElement_lawful : Lawful materialElement RMaterialElement (((none, 0, 0, 0, 0), []), 0) := by
  have lm := material_lawful
  have ll := list_lawful icElement_lawful
  refine Lawful.mk' (lm.loc.pair ll.loc).via (fun h => ⟨init_pair (lm.init h) (init_list h), rfl⟩)
    ((lm.dest.pair ll.loc ll.dest).via (fun _ => melemInit) fun a => ?_) (fun a h d h' e => ?_) ?_ ?_
  · simp only [materialElement, melemDestroy, material, list, bind_assoc]
  · simp only [materialElement, melemDestroy, ← bind_assoc] at e; exact result_pure e
  · exact (lm.dup.pair lm.loc ll.loc ll.dup).via (fun a x => ⟨x.1, a.n, x.2⟩) (fun _ _ => rfl) (fun _ _ => rfl) fun a => by
      simp only [materialElement, material, list, melemCopy, melemDestroy, melemInit, materialDestroy_init, listDestroy_init, pure_bind, bind_assoc]
  · intro d a
    simp only [materialElement, melemCopy, melemDestroy, melemInit, materialDestroy_init, listDestroy_init, pure_bind, bind_assoc]

theorem melemDestroy_init : melemDestroy melemInit = pure melemInit := rfl

abbrev LayerV := (Option String × Option String × MaterialV × List MaterialElementV) × (ℚ × Nat × Nat)
def RLayer : Rel Layer LayerV := RVia (fun l => (l.id, l.file, l.material, l.layout)) (fun l => (l.height, l.discrX, l.discrY))
  (RPair RString (RPair RString (RPair RMaterial (RList RMaterialElement))))

theorem layer_lawful : Lawful layer RLayer ((none, none, (none, 0, 0, 0, 0), []), 0, 0, 0) := by
  have lm := material_lawful
  have ll := list_lawful materialElement_lawful
  have l3 := lm.loc.pair ll.loc
  have l2 := string_local.pair l3
  refine Lawful.mk' (string_local.pair l2).via (fun h => ⟨init_pair (init_string h) (init_pair (init_string h) (init_pair (lm.init h) (init_list h))), rfl⟩)
    ((string_dest.pair l2 (string_dest.pair l3 (lm.dest.pair ll.loc ll.dest))).via (fun _ => layerInit) fun a => ?_) (fun a h d h' e => ?_) ?_ ?_
  · simp only [layer, layerDestroy, material, list, bind_assoc]
  · simp only [layer, layerDestroy, ← bind_assoc] at e; exact result_pure e
  · exact (string_dup.pair string_local l2 (string_dup.pair string_local l3 (lm.dup.pair lm.loc ll.loc ll.dup))).via
      (fun a x => ⟨a.height, x.2.2.1, x.1, x.2.1, x.2.2.2, a.discrX, a.discrY⟩) (fun _ _ => rfl) (fun _ _ => rfl) fun a => by
      simp only [layer, material, list, layerCopy, layerDestroy, layerInit, stringDestroy, materialDestroy_init, listDestroy_init, pure_bind, bind_assoc]
  · intro d a
    simp only [layer, layerCopy, layerDestroy, layerInit, stringDestroy, materialDestroy_init, listDestroy_init, pure_bind, bind_assoc]

/-! ### Floorplans -/

/-- A queue of powers: its value is the list of the powers, the next one first. -/
def RQueue : Rel QueueS (List ℚ) := fun h q v s =>
  (q.mem = none ∧ q.size = 0 ∧ v = [] ∧ s = ∅) ∨
  ∃ p m, q.mem = some p ∧ Has h p m ∧ s = {p} ∧ ((q.size = 0 ∧ v = []) ∨
    (PowersQueue.Inv (⟨q.cap, q.size, q.start, q.stop, some m⟩ : PowersQueue.PQ ℚ) ∧
      PowersQueue.toList (⟨q.cap, q.size, q.start, q.stop, some m⟩ : PowersQueue.PQ ℚ) = v))

theorem queue_local : Local RQueue where
  frame := by
    rintro h p v s h' (r | ⟨q, m, e, hm, rfl, r⟩) f
    · exact Or.inl r
    · exact Or.inr ⟨q, m, e, (f q (by simp)).trans hm, rfl, r⟩
  live := by
    rintro h p v s (⟨_, _, _, rfl⟩ | ⟨q, m, e, hm, rfl, r⟩) x hx
    · simp at hx
    · rw [Finset.mem_singleton.1 hx]; exact hm.live

theorem queue_dest : Dest RQueue queueDestroy := by
  rintro h p v s (⟨e, _, _, rfl⟩ | ⟨q, m, e, hm, rfl, r⟩)
  · exact ⟨queueInit, by unfold queueDestroy; rw [e, minus_empty]; rfl⟩
  · refine ⟨queueInit, ?_⟩
    unfold queueDestroy
    rw [e]
    show (free q >>= _) h = _
    rw [step (free_eq hm.live)]
    rfl

theorem copy_empty (c b : Nat) (e : Nat) (m : Option (List ℚ)) :
    PowersQueue.copy PowersQueue.init (⟨c, 0, b, e, m⟩ : PowersQueue.PQ ℚ) = some (PowersQueue.build PowersQueue.init c) := by
  simp [PowersQueue.copy, PowersQueue.copyWith, PowersQueue.init, PowersQueue.isEmpty]

theorem queue_dup : Dup RQueue queueCopyNew := by
  have alloc_step : ∀ (h : Heap) (q : PowersQueue.PQ ℚ) (m : List ℚ), q.mem = some m →
      (match q.mem with
        | none => pure ⟨q.cap, q.size, q.start, q.stop, none⟩
        | some m => do let p ← alloc m; pure ⟨q.cap, q.size, q.start, q.stop, some p⟩ : M QueueS) h
        = some (⟨q.cap, q.size, q.start, q.stop, some h.next⟩, plus h m) := by
    intro h q m e
    rw [e]
    rfl
  rintro h ⟨c, n, b, e, mem⟩ v s (⟨rfl, rfl, rfl, rfl⟩ | ⟨p, m, rfl, hm, rfl, ⟨rfl, rfl⟩ | ⟨i, rfl⟩⟩)
  · refine ⟨⟨c, 0, 0, 0, some h.next⟩, plus h (List.replicate c 0), {h.next}, ?_, plus_new _ _, Or.inr ⟨_, _, rfl, plus_has _ _, rfl, Or.inl ⟨rfl, rfl⟩⟩⟩
    unfold queueCopyNew
    simp only [queueLoad, pure_bind, copy_empty]
    exact alloc_step h (PowersQueue.build PowersQueue.init c) _ rfl
  · refine ⟨⟨c, 0, 0, 0, some h.next⟩, plus h (List.replicate c 0), {h.next}, ?_, plus_new _ _, Or.inr ⟨_, _, rfl, plus_has _ _, rfl, Or.inl ⟨rfl, rfl⟩⟩⟩
    unfold queueCopyNew
    simp only [queueLoad, bind_assoc, pure_bind, copy_empty]
    rw [step (load_eq hm)]
    exact alloc_step h (PowersQueue.build PowersQueue.init c) _ rfl
  · obtain ⟨q', e1, e2, e3⟩ := PowersQueue.C02_copy_same_values (PowersQueue.init : PowersQueue.PQ ℚ) _ i (Or.inl rfl)
    obtain ⟨m', hm'⟩ : ∃ m', q'.mem = some m' := ⟨e2.ex.choose, e2.ex.choose_spec.1⟩
    refine ⟨⟨q'.cap, q'.size, q'.start, q'.stop, some h.next⟩, plus h m', {h.next}, ?_, plus_new _ _, Or.inr ⟨_, m', rfl, plus_has _ _, rfl, Or.inr ?_⟩⟩
    · unfold queueCopyNew
      simp only [queueLoad, bind_assoc, pure_bind]
      rw [step (load_eq hm), e1]
      exact alloc_step h q' m' hm'
    · have : q' = ⟨q'.cap, q'.size, q'.start, q'.stop, some m'⟩ := by cases q'; simp at hm'; subst hm'; rfl
      rw [← this]
      exact ⟨e2, e3⟩

theorem queue_lawful : Lawful queue RQueue [] := by
  refine Lawful.mk' queue_local (fun h => Or.inl ⟨rfl, rfl, rfl, rfl⟩) queue_dest (fun a h d h' e => result_pure e) ?_ ?_
  · have : queue.copy queue.init = queueCopyNew := by
      funext a; simp only [queue, queueDestroy, queueInit, arrayFree, pure_bind, bind_assoc]
    rw [this]; exact queue_dup
  · intro d a
    simp only [queue, queueDestroy, queueInit, arrayFree, pure_bind, bind_assoc]

abbrev FlpElementV := (Option String × List ICElementV × Option (List ℚ)) × (Nat × ℚ)
def RFlpElement : Rel FlpElement FlpElementV := RVia (fun e => (e.id, e.elements, e.powers)) (fun e => (e.n, e.area))
  (RPair RString (RPair (RList RICElement) (ROwn RQueue)))

theorem flpElement_lawful : Lawful flpElement RFlpElement ((none, [], none), 0, 0) := by
  have lq := queue_lawful
  have ll := list_lawful icElement_lawful
  have lo := lq.loc.own
  have l2 := ll.loc.pair lo
  refine Lawful.mk' (string_local.pair l2).via (fun h => ⟨init_pair (init_string h) (init_pair (init_list h) (init_own h)), rfl⟩)
    ((string_dest.pair l2 (ll.dest.pair lo lq.dest.own)).via (fun _ => flpelInit) fun a => ?_) (fun a h d h' e => ?_) ?_ ?_
  · simp only [flpElement, flpelDestroy, list, bind_assoc]
  · simp only [flpElement, flpelDestroy, ← bind_assoc] at e; exact result_pure e
  · exact (string_dup.pair string_local l2 (ll.dup.pair ll.loc lo (Dup.own lq.loc lq.dup))).via
      (fun a x => ⟨x.1, a.n, x.2.1, a.area, x.2.2⟩) (fun _ _ => rfl) (fun _ _ => rfl) fun a => by
      simp only [flpElement, list, flpelCopy, flpelDestroy, flpelInit, stringDestroy, listDestroy_init, freeObj, pure_bind, bind_assoc]
  · intro d a
    simp only [flpElement, flpelCopy, flpelDestroy, flpelInit, stringDestroy, listDestroy_init, freeObj, pure_bind, bind_assoc]

/-- The matrix of a floorplan: `none` if it was not built, else its three sizes and its three arrays. -/
abbrev FlpMatrixV := Option ((Nat × Nat × Nat) × (List Nat × List Nat × List ℚ))
def RFlpMatrix : Rel FlpMatrix FlpMatrixV := fun h m v s =>
  (m = matrixInit ∧ v = none ∧ s = ∅) ∨
  ∃ c r x cl rl xl, m.columns = some c ∧ m.rows = some r ∧ m.values = some x ∧ Has h c cl ∧ Has h r rl ∧ Has h x xl ∧ c ≠ r ∧ c ≠ x ∧ r ≠ x ∧
    m.nRows ≠ 0 ∧ m.nColumns ≠ 0 ∧ m.nnz ≠ 0 ∧ cl.length = m.nColumns + 1 ∧ rl.length = m.nnz ∧ xl.length = m.nnz ∧
    v = some ((m.nRows, m.nColumns, m.nnz), (cl, rl, xl)) ∧ s = {c, r, x}

theorem matrix_local : Local RFlpMatrix where
  frame := by
    rintro h p v s h' (r | ⟨c, r, x, cl, rl, xl, e1, e2, e3, h1, h2, h3, rest⟩) f
    · exact Or.inl r
    · obtain ⟨n1, n2, n3, z1, z2, z3, l1, l2, l3, hv, rfl⟩ := rest
      exact Or.inr ⟨c, r, x, cl, rl, xl, e1, e2, e3, (f c (by simp)).trans h1, (f r (by simp)).trans h2, (f x (by simp)).trans h3, n1, n2, n3, z1, z2, z3, l1, l2, l3, hv, rfl⟩
  live := by
    rintro h p v s (⟨_, _, rfl⟩ | ⟨c, r, x, cl, rl, xl, e1, e2, e3, h1, h2, h3, n1, n2, n3, z1, z2, z3, l1, l2, l3, hv, rfl⟩) y hy
    · simp at hy
    · simp only [Finset.mem_insert, Finset.mem_singleton] at hy
      rcases hy with rfl | rfl | rfl
      · exact h1.live
      · exact h2.live
      · exact h3.live

theorem matrix_dest : Dest RFlpMatrix matrixDestroy := by
  rintro h p v s (⟨rfl, _, rfl⟩ | ⟨c, r, x, cl, rl, xl, e1, e2, e3, h1, h2, h3, n1, n2, n3, z1, z2, z3, l1, l2, l3, hv, rfl⟩)
  · exact ⟨matrixInit, by rw [minus_empty]; rfl⟩
  · refine ⟨matrixInit, ?_⟩
    unfold matrixDestroy
    rw [e1, e2, e3]
    simp only [arrayFree]
    rw [step (free_eq h1.live)]
    rw [step (free_eq (by rw [minus_other _ _ (by simpa using Ne.symm n1)]; exact h2.live)), minus_minus]
    rw [step (free_eq (by rw [minus_other _ _ (by simp [Ne.symm n2, Ne.symm n3])]; exact h3.live)), minus_minus]
    have e : ({c} ∪ {r} ∪ {x} : Finset Nat) = {c, r, x} := by ext; simp [or_assoc]
    rw [e]
    rfl

theorem matrix_dup : Dup RFlpMatrix (matrixCopy matrixInit) := by
  rintro h p v s (⟨rfl, rfl, rfl⟩ | ⟨c, r, x, cl, rl, xl, e1, e2, e3, h1, h2, h3, n1, n2, n3, z1, z2, z3, l1, l2, l3, hv, rfl⟩)
  · exact ⟨matrixInit, h, ∅, rfl, New.refl h, Or.inl ⟨rfl, rfl, rfl⟩⟩
  · have m1 := plus_new h rl
    have m2 := plus_new (plus h rl) cl
    have m3 := plus_new (plus (plus h rl) cl) xl
    have c1 : Has (plus h rl) c cl := (m1.old c (h.ok _ h1.live)).trans h1
    have x2 : Has (plus (plus h rl) cl) x xl := ((m1.trans m2).old x (h.ok _ h3.live)).trans h3
    have t : ∀ {β : Type} (l : List β) (n : Nat), l.length = n → l.take n = l := fun l n e => List.take_of_length_le (by omega)
    refine ⟨⟨some (h.next + 1), some h.next, some (h.next + 1 + 1), p.nRows, p.nColumns, p.nnz⟩, plus (plus (plus h rl) cl) xl,
      {h.next + 1, h.next, h.next + 1 + 1}, ?_, ?_, Or.inr ⟨h.next + 1, h.next, h.next + 1 + 1, cl, rl, xl, rfl, rfl, rfl, ?_, ?_, ?_, ?_, ?_, ?_, z1, z2, z3, l1, l2, l3, hv, rfl⟩⟩
    · unfold matrixCopy
      have e0 : matrixDestroy matrixInit h = some (matrixInit, h) := rfl
      rw [step e0, if_neg (by simp [z1, z2, z3]), e1, e2, e3]
      simp only [arrayDup, bind_assoc]
      rw [step (load_eq h2), if_pos (by omega), t _ _ l2]
      simp only [bind_assoc, pure_bind]
      rw [step (alloc_eq _ _), step (load_eq c1), if_pos (by omega), t _ _ l1]
      simp only [bind_assoc, pure_bind]
      rw [step (alloc_eq _ _), step (load_eq x2), if_pos (by omega), t _ _ l3]
      rfl
    · have := (m1.trans m2).trans m3
      have e : ({h.next + 1, h.next, h.next + 1 + 1} : Finset Nat) = {h.next} ∪ {(plus h rl).next} ∪ {(plus (plus h rl) cl).next} := by
        ext y; show _ ↔ y ∈ ({h.next} ∪ {h.next + 1} ∪ {h.next + 1 + 1} : Finset Nat); simp; omega
      rw [e]; exact this
    · exact (m3.old _ (Nat.lt_succ_self _)).trans (plus_has _ _)
    · exact ((m2.trans m3).old _ (Nat.lt_succ_self _)).trans (plus_has _ _)
    · exact plus_has _ _
    all_goals omega

theorem flpMatrix_lawful : Lawful flpMatrix RFlpMatrix none := by
  refine Lawful.mk' matrix_local (fun h => Or.inl ⟨rfl, rfl, rfl⟩) matrix_dest (fun a h d h' e => ?_) matrix_dup ?_
  · simp only [flpMatrix, matrixDestroy, ← bind_assoc] at e; exact result_pure e
  · intro d a
    simp only [flpMatrix, matrixCopy, matrixDestroy, matrixInit, arrayFree, pure_bind, bind_assoc]

theorem matrixDestroy_init : matrixDestroy matrixInit = pure matrixInit := rfl

abbrev FloorplanV := (Option String × List FlpElementV × FlpMatrixV × (Nat × Option (List ℚ))) × Unit
def RFloorplan : Rel Floorplan FloorplanV := RVia (fun f => (f.file, f.elements, f.matrix, (f.n, f.bpowers))) (fun _ => ())
  (RPair RString (RPair (RList RFlpElement) (RPair RFlpMatrix (RArr ℚ))))

theorem init_arr {β : Type} (h : Heap) : RArr β h (0, none) (0, none) ∅ := ⟨rfl, Or.inl ⟨rfl, rfl, rfl⟩⟩

theorem floorplan_dest : Dest RFloorplan floorplanDestroy := by
  have ll := list_lawful flpElement_lawful
  have lm := flpMatrix_lawful
  rintro h f v s ⟨⟨s1, t1, r1, ⟨s2, t2, r2, ⟨s3, s4, r3, r4, d3, rfl⟩, d2, rfl⟩, d1, rfl⟩, _⟩
  simp only [Finset.disjoint_union_right] at d1 d2
  obtain ⟨x1, e1⟩ := string_dest _ _ _ _ r1
  obtain ⟨x4, e4⟩ := arr_dest _ _ _ _ (arr_local.minus r4 d1.2.2.symm)
  obtain ⟨x2, e2⟩ := ll.dest _ _ _ _ (ll.loc.minus (ll.loc.minus r2 d1.1.symm) d2.2)
  obtain ⟨x3, e3⟩ := lm.dest _ _ _ _ (lm.loc.minus (lm.loc.minus (lm.loc.minus r3 d1.2.1.symm) d3) d2.1.symm)
  refine ⟨floorplanInit, ?_⟩
  unfold floorplanDestroy
  rw [step e1, step (show arrayFree f.bpowers _ = _ from e4), step (show listDestroy flpElement f.elements _ = _ from e2), step (show matrixDestroy f.matrix _ = _ from e3)]
  simp only [minus_minus, M.pure_apply]
  congr 3
  ext y; simp only [Finset.mem_union]; tauto

theorem floorplan_lawful : Lawful floorplan RFloorplan ((none, [], none, (0, none)), ()) := by
  have ll := list_lawful flpElement_lawful
  have lm := flpMatrix_lawful
  have l3 := lm.loc.pair (arr_local (β := ℚ))
  have l2 := ll.loc.pair l3
  refine Lawful.mk' (string_local.pair l2).via (fun h => ⟨init_pair (init_string h) (init_pair (init_list h) (init_pair (lm.init h) (init_arr h))), rfl⟩)
    floorplan_dest (fun a h d h' e => ?_) ?_ ?_
  · simp only [floorplan, floorplanDestroy, ← bind_assoc] at e; exact result_pure e
  · exact (string_dup.pair string_local l2 (ll.dup.pair ll.loc l3 (lm.dup.pair lm.loc arr_local arr_dup))).via
      (fun a x => ⟨x.1, x.2.2.2.1, x.2.1, x.2.2.1, x.2.2.2.2⟩) (fun _ _ => rfl) (fun _ _ => rfl) fun a => by
      simp only [floorplan, list, flpMatrix, floorplanCopy, floorplanDestroy, floorplanInit, stringDestroy, listDestroy_init, matrixDestroy_init, arrayFree, pure_bind, bind_assoc]
  · intro d a
    simp only [floorplan, floorplanCopy, floorplanDestroy, floorplanInit, stringDestroy, listDestroy_init, matrixDestroy_init, arrayFree, pure_bind, bind_assoc]

theorem floorplanDestroy_init : floorplanDestroy floorplanInit = pure floorplanInit := rfl

/-! ### Dies, heat sinks, channels -/

abbrev DieV := (Option String × List LayerV × FloorplanV) × (Nat × Nat × Nat × Nat)
def RDie : Rel Die DieV := RVia (fun d => (d.id, d.layers, d.floorplan)) (fun d => (d.nLayers, d.sourceOffset, d.discrX, d.discrY))
  (RPair RString (RPair (RList RLayer) RFloorplan))

theorem die_lawful : Lawful die RDie ((none, [], ((none, [], none, (0, none)), ())), 0, 0, 0, 0) := by
  have ll := list_lawful layer_lawful
  have lf := floorplan_lawful
  have l2 := ll.loc.pair lf.loc
  refine Lawful.mk' (string_local.pair l2).via (fun h => ⟨init_pair (init_string h) (init_pair (init_list h) (lf.init h)), rfl⟩)
    ((string_dest.pair l2 (ll.dest.pair lf.loc lf.dest)).via (fun _ => dieInit) fun a => ?_) (fun a h d h' e => ?_) ?_ ?_
  · simp only [die, dieDestroy, floorplan, list, bind_assoc]
  · simp only [die, dieDestroy, ← bind_assoc] at e; exact result_pure e
  · exact (string_dup.pair string_local l2 (ll.dup.pair ll.loc lf.loc lf.dup)).via
      (fun a x => ⟨x.1, a.nLayers, a.sourceOffset, x.2.1, x.2.2, a.discrX, a.discrY⟩) (fun _ _ => rfl) (fun _ _ => rfl) fun a => by
      simp only [die, list, floorplan, dieCopy, dieDestroy, dieInit, stringDestroy, listDestroy_init, floorplanDestroy_init, pure_bind, bind_assoc]
  · intro d a
    simp only [die, dieCopy, dieDestroy, dieInit, stringDestroy, listDestroy_init, floorplanDestroy_init, pure_bind, bind_assoc]

/-- A heat sink: everything except the pointer to the initialisation function of the plug-in. -/
abbrev HeatSinkV := (MaterialV × Option String × Option String) × (Nat × (ℚ × ℚ × ℚ × ℚ × ℚ × ℚ × ℚ) × (Nat × Nat × Nat × Nat) × Ptr)
def sinkRest (s : HeatSink) : Nat × (ℚ × ℚ × ℚ × ℚ × ℚ × ℚ × ℚ) × (Nat × Nat × Nat × Nat) × Ptr :=
  (s.model, (s.htc, s.ambient, s.sprLength, s.sprWidth, s.sprHeight, s.cellLength, s.cellWidth), (s.nRows, s.nColumns, s.rowsBorder, s.columnsBorder), s.fn)
def RHeatSink : Rel HeatSink HeatSinkV := RVia (fun s => (s.material, s.plugin, s.args)) sinkRest (RPair RMaterial (RPair RString RString))

def sink0 : HeatSinkV := (((none, 0, 0, 0, 0), none, none), sinkRest (sinkInit .unset))

theorem heatSink_lawful : Lawful heatSink RHeatSink sink0 := by
  have lm := material_lawful
  have l3 := string_local.pair string_local
  have loc : Local RHeatSink := (lm.loc.pair l3).via
  have init : ∀ h i, RHeatSink h (sinkInit i) sink0 ∅ := fun h i => ⟨init_pair (lm.init h) (init_pair (init_string h) (init_string h)), rfl⟩
  have dest : ∀ h a v s, RHeatSink h a v s → sinkDestroy a h = some (sinkInit a.initFn, h.minus s) := by
    intro h a v s r
    obtain ⟨d, e⟩ := (lm.dest.pair l3 (string_dest.pair string_local string_dest)) _ _ _ _ r.1
    have : sinkDestroy a = (material.destroy a.material >>= fun _ => stringDestroy a.plugin >>= fun _ => stringDestroy a.args) >>= fun _ => pure (sinkInit a.initFn) := by
      simp only [sinkDestroy, material, bind_assoc]
    rw [this, step e]
    rfl
  refine ⟨loc, fun h => init h _, fun h a v s r => ⟨_, dest h a v s r, init _ _⟩, fun h d w t a v s rd ra dj => ?_⟩
  have dup : ∀ i : Slot, Dup RHeatSink fun src => (do
      let m ← materialCopy materialInit src.material
      let p ← stringCopy none src.plugin
      let a ← stringCopy none src.args
      pure ⟨src.model, src.htc, src.ambient, src.sprLength, src.sprWidth, src.sprHeight, m, p, a, src.cellLength, src.cellWidth, src.nRows, src.nColumns,
        src.rowsBorder, src.columnsBorder, i, src.fn⟩ : M HeatSink) := fun i =>
    (lm.dup.pair lm.loc l3 (string_dup.pair string_local string_local string_dup)).via
      (fun src x => ⟨src.model, src.htc, src.ambient, src.sprLength, src.sprWidth, src.sprHeight, x.1, x.2.1, x.2.2, src.cellLength, src.cellWidth, src.nRows, src.nColumns,
        src.rowsBorder, src.columnsBorder, i, src.fn⟩) (fun _ _ => rfl) (fun _ _ => rfl) fun a => by
      simp only [material, bind_assoc, pure_bind]
  have e : heatSink.copy d a h = _ := step (m := sinkDestroy d) (dest h d w t rd)
  rw [e]
  exact dup d.initFn _ _ _ _ (loc.minus ra dj)

abbrev ChannelV := MaterialV × ((Nat × Nat × Nat × Nat) × (ℚ × ℚ × ℚ × ℚ) × Coolant)
def RChannel : Rel Channel ChannelV := RVia (fun c => c.material)
  (fun c => ((c.model, c.nChannels, c.nLayers, c.sourceOffset), (c.height, c.length, c.pitch, c.porosity), c.coolant)) RMaterial

theorem channel_lawful : Lawful channel RChannel ((none, 0, 0, 0, 0), (0, 0, 0, 0), (0, 0, 0, 0), ⟨0, 0, 0, 0, 0, 0, 0⟩) := by
  refine Lawful.mk' material_lawful.loc.via (fun h => ⟨material_lawful.init h, rfl⟩) (material_lawful.dest.via (fun _ => channelInit) fun a => rfl)
    (fun a h d h' e => result_pure e) ?_ ?_
  · exact material_lawful.dup.via (fun a x => ⟨a.model, a.height, a.length, a.pitch, a.porosity, a.nChannels, a.nLayers, a.sourceOffset, a.coolant, x⟩)
      (fun _ _ => rfl) (fun _ _ => rfl) fun a => by
        simp only [channel, material, channelCopy, channelDestroy, channelInit, materialDestroy_init, pure_bind]
  · intro d a
    simp only [channel, channelCopy, channelDestroy, channelInit, materialDestroy_init, pure_bind, bind_assoc]

/-! ### Stack elements -/

/-- What a stack element refers to: a layer or a die of its own, or something of the stack description (a channel). -/
inductive BodyV where
  | layer (l : Option LayerV)
  | die (d : Option DieV)
  | other (isChannel : Bool) (p : Ptr)

def RBody : Rel (StackType × Ptr) BodyV := fun h a v s =>
  match a.1 with
  | .layer => ∃ l, v = .layer l ∧ ROwn RLayer h a.2 l s
  | .die => ∃ d, v = .die d ∧ ROwn RDie h a.2 d s
  | .channel => v = .other true a.2 ∧ s = ∅
  | .none => v = .other false a.2 ∧ s = ∅

theorem body_local : Local RBody where
  frame := by
    rintro h ⟨t, p⟩ v s h' r f
    cases t with
    | none => exact r
    | channel => exact r
    | layer => obtain ⟨l, e, r⟩ := r; exact ⟨l, e, layer_lawful.loc.own.frame r f⟩
    | die => obtain ⟨l, e, r⟩ := r; exact ⟨l, e, die_lawful.loc.own.frame r f⟩
  live := by
    rintro h ⟨t, p⟩ v s r
    cases t with
    | none => obtain ⟨_, rfl⟩ := r; intro p hp; simp at hp
    | channel => obtain ⟨_, rfl⟩ := r; intro p hp; simp at hp
    | layer => obtain ⟨l, e, r⟩ := r; exact layer_lawful.loc.own.live r
    | die => obtain ⟨l, e, r⟩ := r; exact die_lawful.loc.own.live r

theorem body_dest : Dest RBody fun a => bodyFree a.1 a.2 := by
  rintro h ⟨t, p⟩ v s r
  cases t with
  | none => obtain ⟨_, rfl⟩ := r; exact ⟨(), by rw [minus_empty]; rfl⟩
  | channel => obtain ⟨_, rfl⟩ := r; exact ⟨(), by rw [minus_empty]; rfl⟩
  | layer => obtain ⟨l, e, r⟩ := r; exact layer_lawful.dest.own _ _ _ _ r
  | die => obtain ⟨l, e, r⟩ := r; exact die_lawful.dest.own _ _ _ _ r

theorem body_dup : Dup RBody fun a => bodyClone a.1 a.2 >>= fun p => pure (a.1, p) := by
  have out : ∀ {t : StackType} {m : M Ptr} {h h' : Heap} {p}, m h = some (p, h') → (m >>= fun p => pure (t, p)) h = some ((t, p), h') := by
    intro t m h h' p e; rw [step e]; rfl
  rintro h ⟨t, p⟩ v s r
  cases t with
  | none => obtain ⟨e, rfl⟩ := r; exact ⟨_, h, ∅, rfl, New.refl h, e, rfl⟩
  | channel => obtain ⟨e, rfl⟩ := r; exact ⟨_, h, ∅, rfl, New.refl h, e, rfl⟩
  | layer =>
    obtain ⟨l, e, r⟩ := r
    obtain ⟨d, k, u, ed, n, r'⟩ := Dup.own layer_lawful.loc layer_lawful.dup _ _ _ _ r
    exact ⟨(.layer, d), k, u, out ed, n, l, e, r'⟩
  | die =>
    obtain ⟨l, e, r⟩ := r
    obtain ⟨d, k, u, ed, n, r'⟩ := Dup.own die_lawful.loc die_lawful.dup _ _ _ _ r
    exact ⟨(.die, d), k, u, out ed, n, l, e, r'⟩

abbrev StackElementV := (Option String × BodyV × Option HeatSinkV × Option HeatSinkV) × (Nat × Nat)
def RStackElement : Rel StackElement StackElementV := RVia (fun e => (e.id, (e.type, e.pointer), e.top, e.bottom)) (fun e => (e.nLayers, e.offset))
  (RPair RString (RPair RBody (RPair (ROwn RHeatSink) (ROwn RHeatSink))))

theorem stackElement_lawful : Lawful stackElement RStackElement ((none, .other false none, none, none), 0, 0) := by
  have lh := heatSink_lawful
  have lo := lh.loc.own
  have l3 := lo.pair lo
  have l2 := body_local.pair l3
  have ddo := Dup.own lh.loc lh.dup
  refine Lawful.mk' (string_local.pair l2).via (fun h => ⟨init_pair (init_string h) (init_pair (v := BodyV.other false none) ⟨rfl, rfl⟩ (init_pair (init_own h) (init_own h))), rfl⟩)
    ((string_dest.pair l2 (body_dest.pair l3 (lh.dest.own.pair lo lh.dest.own))).via (fun _ => stkelInit) fun a => ?_) (fun a h d h' e => ?_) ?_ ?_
  · simp only [stackElement, stkelDestroy, bind_assoc]
  · simp only [stackElement, stkelDestroy, ← bind_assoc] at e; exact result_pure e
  · exact (string_dup.pair string_local l2 (body_dup.pair body_local l3 (ddo.pair lo lo ddo))).via
      (fun a x => ⟨x.1, x.2.1.1, x.2.1.2, x.2.2.1, x.2.2.2, a.nLayers, a.offset⟩) (fun _ _ => rfl) (fun _ _ => rfl) fun a => by
      simp only [stackElement, stkelCopy, stkelDestroy, stkelInit, stringDestroy, bodyFree, freeObj, pure_bind, bind_assoc]
  · intro d a
    simp only [stackElement, stkelCopy, stkelDestroy, stkelInit, stringDestroy, bodyFree, freeObj, pure_bind, bind_assoc]

/-! ### Outputs -/

abbrev IPointV := Option String × ((Nat × Nat × Nat) × (ℚ × ℚ × ℚ × ℚ) × (Nat × Nat) × (Ptr × Ptr))
def RIPoint : Rel IPoint IPointV := RVia (fun p => p.file)
  (fun p => ((p.instant, p.type, p.quantity), (p.x, p.actualX, p.y, p.actualY), (p.row, p.column), (p.element, p.flpElement))) RString

theorem ipoint_lawful : Lawful ipoint RIPoint (none, (0, 0, 0), (0, 0, 0, 0), (0, 0), (none, none)) := by
  refine Lawful.mk' string_local.via (fun h => ⟨Or.inl ⟨rfl, rfl, rfl⟩, rfl⟩) (string_dest.via (fun _ => ipointInit) fun a => rfl)
    (fun a h d h' e => result_pure e) ?_ ?_
  · refine string_dup.via (fun a x => ⟨x, a.instant, a.type, a.quantity, a.x, a.actualX, a.y, a.actualY, a.row, a.column, a.element, a.flpElement⟩)
      (fun _ _ => rfl) (fun _ _ => rfl) fun a => ?_
    simp only [ipoint, ipointCopy, ipointDestroy, ipointInit, stringDestroy, pure_bind]
  · intro d a
    simp only [ipoint, ipointCopy, ipointDestroy, ipointInit, stringDestroy, pure_bind, bind_assoc]

abbrev OutputV := (List IPointV × List IPointV × List IPointV) × Unit
def ROutput : Rel OutputS OutputV := RVia (fun o => (o.final, o.slot, o.step)) (fun _ => ()) (RPair (RList RIPoint) (RPair (RList RIPoint) (RList RIPoint)))

theorem output_lawful : Lawful output ROutput (([], [], []), ()) := by
  have ll := list_lawful ipoint_lawful
  have l2 := ll.loc.pair ll.loc
  refine Lawful.mk' (ll.loc.pair l2).via (fun h => ⟨init_pair (init_list h) (init_pair (init_list h) (init_list h)), rfl⟩)
    ((ll.dest.pair l2 (ll.dest.pair ll.loc ll.dest)).via (fun _ => outputInit) fun a => ?_) (fun a h d h' e => ?_) ?_ ?_
  · simp only [output, outputDestroy, list, bind_assoc]
  · simp only [output, outputDestroy, ← bind_assoc] at e; exact result_pure e
  · exact (ll.dup.pair ll.loc l2 (ll.dup.pair ll.loc ll.loc ll.dup)).via
      (fun a x => ⟨x.1, x.2.1, x.2.2⟩) (fun _ _ => rfl) (fun _ _ => rfl) fun a => by
      simp only [output, list, outputCopy, outputDestroy, outputInit, listDestroy_init, pure_bind, bind_assoc]
  · intro d a
    simp only [output, outputCopy, outputDestroy, outputInit, listDestroy_init, pure_bind, bind_assoc]

/-! ### Dimensions -/

abbrev CellDimsV := (Nat × Option (List ℚ)) × (ℚ × ℚ × ℚ × ℚ × ℚ)
def RCellDims : Rel CellDims CellDimsV := RVia (fun c => (c.nHeights, c.heights)) (fun c => (c.firstWall, c.wall, c.channel, c.lastWall, c.width)) (RArr ℚ)

theorem cell_local : Local RCellDims := arr_local.via
theorem cell_dest : Dest RCellDims cellDestroy := arr_dest.via (fun _ => cellInit) fun a => rfl
theorem cell_dup : Dup RCellDims (cellCopy cellInit) :=
  arr_dup.via (fun a x => ⟨a.firstWall, a.wall, a.channel, a.lastWall, a.width, x.1, x.2⟩) (fun _ _ => rfl) (fun _ _ => rfl) fun a => by
    simp only [cellCopy, cellDestroy, cellInit, arrayFree, pure_bind, bind_assoc]

/-- The dimensions; the boolean tells if the array of pointers to the cells is there. -/
abbrev DimsV := (CellDimsV × Bool × List NCellV × List ConnectionV) × (Plain × Nat × Nat × Nat)
def RDims : Rel DimsS DimsV := RVia (fun d => (d.cell, d.pointers, d.cells, d.connections)) (fun d => (d.plain, d.nonUniform, d.discrX, d.discrY))
  (RPair RCellDims (RPair RAny (RPair (RList RNCell) (RList RConnection))))

theorem dims_local : Local RDims :=
  (cell_local.pair (any_local.pair ((list_lawful ncell_lawful).loc.pair (list_lawful connection_lawful).loc))).via

theorem dims_dest : Dest RDims dimsDestroy := by
  have l1 := list_lawful ncell_lawful
  have l2 := list_lawful connection_lawful
  exact (cell_dest.pair (any_local.pair (l1.loc.pair l2.loc)) (any_dest.pair (l1.loc.pair l2.loc) (l1.dest.pair l2.loc l2.dest))).via (fun _ => dimsInit) fun a => by
    simp only [dimsDestroy, list, bind_assoc]

/-- The dimensions without the array of pointers: before the thermal data of a non-uniform grid are built. -/
def RDims0 : Rel DimsS DimsV := fun h d v s => RDims h d v s ∧ d.pointers = none

def dims0 : DimsV := ((((0, none), 0, 0, 0, 0, 0), false, [], []), ⟨0, 0, 0, 0, 0, 0, 0⟩, 0, 0, 0)

theorem dims_lawful : Lawful dims RDims0 dims0 := by
  have l1 := list_lawful ncell_lawful
  have l2 := list_lawful connection_lawful
  have init : ∀ h, RDims0 h dimsInit dims0 ∅ := fun h =>
    ⟨⟨init_pair (A := RCellDims) ⟨init_arr h, rfl⟩ (init_pair (A := RAny) (Or.inl ⟨rfl, rfl, rfl⟩) (init_pair (init_list h) (init_list h))), rfl⟩, rfl⟩
  refine Lawful.mk' ⟨fun r f => ⟨dims_local.frame r.1 f, r.2⟩, fun r => dims_local.live r.1⟩ init (fun h a v s r => dims_dest h a v s r.1)
    (fun a h d h' e => ?_) ?_ ?_
  · simp only [dims, dimsDestroy, ← bind_assoc] at e; exact result_pure e
  · rintro h ⟨c, pl, nu, dx, dy, pp, cs, ks⟩ v s ⟨⟨⟨s1, t1, r1, ⟨s2, t2, r2, r3, dj2, rfl⟩, dj1, rfl⟩, hv⟩, hp⟩
    simp only at hp
    subst hp
    rcases r2 with ⟨_, hb, rfl⟩ | ⟨q, eq, _⟩
    swap
    · cases eq
    rw [Finset.empty_union] at dj1
    have three : RPair RCellDims (RPair (RList RNCell) (RList RConnection)) h (c, cs, ks) (v.1.1, v.1.2.2.1, v.1.2.2.2) (s1 ∪ t2) :=
      ⟨s1, t2, r1, r3, dj1, rfl⟩
    obtain ⟨d, k, u, e, n, r⟩ := cell_dup.pair cell_local (l1.loc.pair l2.loc) (l1.dup.pair l1.loc l2.loc l2.dup) _ _ _ _ three
    refine ⟨⟨d.1, pl, nu, dx, dy, none, d.2.1, d.2.2⟩, k, u, ?_, n, ?_⟩
    · have : dims.copy dims.init ⟨c, pl, nu, dx, dy, none, cs, ks⟩ = (cellCopy cellInit c >>= fun y => (listCopy ncell listInit cs >>= fun y => listCopy connection listInit ks >>= fun z => pure (y, z)) >>=
          fun z => pure (y, z)) >>= fun d => pure ⟨d.1, pl, nu, dx, dy, none, d.2.1, d.2.2⟩ := by
        simp only [dims, dimsCopy, dimsDestroy, dimsInit, cellDestroy, cellInit, arrayFree, listDestroy_init, pure_bind, bind_assoc]
      rw [this]
      exact (step e).trans rfl
    · obtain ⟨u1, u2, r1', r2', dj', rfl⟩ := r
      exact ⟨⟨⟨u1, u2, r1', ⟨∅, u2, Or.inl ⟨rfl, hb, rfl⟩, r2', by simp, by simp⟩, dj', rfl⟩, hv⟩, rfl⟩
  · intro d a
    simp only [dims, dimsCopy, dimsDestroy, dimsInit, cellDestroy, cellInit, arrayFree, listDestroy_init, pure_bind, bind_assoc]

end Verif.Own
