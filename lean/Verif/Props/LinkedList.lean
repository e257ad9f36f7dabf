import Verif.Lemmas.LinkedList
/-!
Property C03 (typed lists). Specification: list variables hold plain sequences.
-/
namespace Verif.DList
variable {α : Type}

/-- Assignment of a sequence. -/
def setS (s : Nat → List α) (i : Nat) (v : List α) : Nat → List α := fun k => if k = i then v else s k

/-- Specification of the operations on plain sequences. -/
def specStep (s : Nat → List α) : Op α → (Nat → List α)
  | .insertBegin i x => setS s i (x :: s i)
  | .insertEnd i x   => setS s i (s i ++ [x])
  | .merge i j       => setS (setS s i (s i ++ s j)) j []
  | .copy i j        => setS s i (s j)
  | .destroy i       => setS s i []

def specRun (s : Nat → List α) : List (Op α) → (Nat → List α)
  | []        => s
  | op :: ops => specRun (specStep s op) ops

/-- The two-list operations are applied to two different lists. -/
def Op.Distinct : Op α → Prop
  | .merge i j => i ≠ j
  | .copy i j  => i ≠ j
  | _          => True

/-- Every list variable represents its sequence, with disjoint nodes. -/
def WInv (w : World α) (s : Nat → List α) : Prop :=
  ∃ addrs : Nat → List Nat, (∀ i, LRep w.mem.heap (w.list i) (addrs i) (s i)) ∧ (∀ i, ∀ a ∈ addrs i, a < w.mem.brk) ∧
    (∀ i j, i ≠ j → ∀ a ∈ addrs i, a ∉ addrs j)

theorem WInv.start : WInv (start : World α) (fun _ => []) :=
  ⟨fun _ => [], fun _ => LRep.empty _, by simp, by simp⟩

theorem step_spec (w : World α) (s : Nat → List α) (op : Op α) (hw : WInv w s) (hd : op.Distinct) :
    ∃ w', step w op = some w' ∧ WInv w' (specStep s op) := by
  obtain ⟨A, hr, hb, hdis⟩ := hw
  cases op with
  | insertBegin i x =>
    obtain ⟨h', l', e1, e2, e3⟩ := insertBegin_spec (hr i) (hb i) x
    refine ⟨_, by simp only [step]; rw [e1], fun k => if k = i then w.mem.brk :: A i else A k, ?_, ?_, ?_⟩
    · intro k
      by_cases hk : k = i
      · subst hk; simpa [setL, specStep, setS] using e2
      · simp only [setL, specStep, setS, hk, if_false]
        exact (hr k).frame (fun a ha => e3 a (hdis k i hk a ha) (by have := hb k a ha; omega))
    · intro k a ha
      by_cases hk : k = i
      · subst hk
        simp only [if_true, List.mem_cons] at ha
        rcases ha with ha | ha
        · subst ha; exact Nat.lt_succ_self _
        · exact Nat.lt_succ_of_lt (hb k a ha)
      · simp only [hk, if_false] at ha
        exact Nat.lt_succ_of_lt (hb k a ha)
    · intro j k hjk a ha
      by_cases hj : j = i
      · subst hj
        simp only [if_true, List.mem_cons] at ha
        simp only [show ¬ k = j from fun h => hjk h.symm, if_false]
        rcases ha with ha | ha
        · intro h; have := hb k a h; omega
        · exact hdis j k hjk a ha
      · simp only [hj, if_false] at ha
        by_cases hk : k = i
        · subst hk
          simp only [if_true, List.mem_cons, not_or]
          exact ⟨by have := hb j a ha; omega, hdis j k hjk a ha⟩
        · simp only [hk, if_false]; exact hdis j k hjk a ha
  | insertEnd i x =>
    obtain ⟨h', l', e1, e2, e3⟩ := insertEnd_spec (hr i) (hb i) x
    refine ⟨_, by simp only [step]; rw [e1], fun k => if k = i then A i ++ [w.mem.brk] else A k, ?_, ?_, ?_⟩
    · intro k
      by_cases hk : k = i
      · subst hk; simpa [setL, specStep, setS] using e2
      · simp only [setL, specStep, setS, hk, if_false]
        exact (hr k).frame (fun a ha => e3 a (hdis k i hk a ha) (by have := hb k a ha; omega))
    · intro k a ha
      by_cases hk : k = i
      · subst hk
        simp only [if_true, List.mem_append, List.mem_singleton] at ha
        rcases ha with ha | ha
        · exact Nat.lt_succ_of_lt (hb k a ha)
        · subst ha; exact Nat.lt_succ_self _
      · simp only [hk, if_false] at ha
        exact Nat.lt_succ_of_lt (hb k a ha)
    · intro j k hjk a ha
      by_cases hj : j = i
      · subst hj
        simp only [if_true, List.mem_append, List.mem_singleton] at ha
        simp only [show ¬ k = j from fun h => hjk h.symm, if_false]
        rcases ha with ha | ha
        · exact hdis j k hjk a ha
        · intro h; have := hb k a h; omega
      · simp only [hj, if_false] at ha
        by_cases hk : k = i
        · subst hk
          simp only [if_true, List.mem_append, List.mem_singleton, not_or]
          exact ⟨hdis j k hjk a ha, by have := hb j a ha; omega⟩
        · simp only [hk, if_false]; exact hdis j k hjk a ha
  | merge i j =>
    have hij : i ≠ j := hd
    obtain ⟨h', l1, l2, e1, e2, e3, e4⟩ := merge_spec (hr i) (hr j) (hdis i j hij)
    refine ⟨_, by simp only [step]; rw [e1], fun k => if k = j then [] else if k = i then A i ++ A j else A k, ?_, ?_, ?_⟩
    · intro k
      by_cases hkj : k = j
      · subst hkj; simp only [setL, specStep, setS, if_true]; rw [e3]; exact LRep.empty _
      · by_cases hki : k = i
        · subst hki; simpa [setL, specStep, setS, hkj] using e2
        · simp only [setL, specStep, setS, hkj, hki, if_false]
          exact (hr k).frame (fun a ha => e4 a (hdis k i hki a ha) (hdis k j hkj a ha))
    · intro k a ha
      by_cases hkj : k = j
      · simp [hkj] at ha
      · by_cases hki : k = i
        · subst hki
          simp only [hkj, if_true, if_false, List.mem_append] at ha
          rcases ha with ha | ha
          · exact hb _ a ha
          · exact hb _ a ha
        · simp only [hkj, hki, if_false] at ha; exact hb _ a ha
    · intro p q hpq a ha
      by_cases hpj : p = j
      · simp [hpj] at ha
      · by_cases hqj : q = j
        · simp [hqj]
        · by_cases hpi : p = i
          · subst hpi
            simp only [hpj, if_true, if_false, List.mem_append] at ha
            simp only [hqj, show ¬ q = p from fun h => hpq h.symm, if_false]
            rcases ha with ha | ha
            · exact hdis p q hpq a ha
            · exact hdis j q (fun h => hqj h.symm) a ha
          · simp only [hpj, hpi, if_false] at ha
            by_cases hqi : q = i
            · subst hqi
              simp only [hqj, if_true, if_false, List.mem_append, not_or]
              exact ⟨hdis p q hpq a ha, hdis p j hpj a ha⟩
            · simp only [hqj, hqi, if_false]; exact hdis p q hpq a ha
  | copy i j =>
    have hij : i ≠ j := hd
    obtain ⟨h1, f1, f2⟩ := destroy_spec (hr i) (hb i)
    have hr1 : ∀ k, k ≠ i → LRep h1 (w.list k) (A k) (s k) := fun k hk =>
      (hr k).frame (fun a ha => f2 a (hdis k i hk a ha))
    have rj := hr1 j (fun h => hij h.symm)
    have hlen := nodup_bounded_length w.mem.brk (A j) (hr j).nodup (hb j)
    obtain ⟨h', b, dst', ds', g1, g2, g3, g4, g5, g6⟩ := copyLoop_spec (A j) (m := ⟨h1, w.mem.brk⟩) (k := w.mem.brk + 1)
      rj.dl (by omega) (LRep.empty h1) (by simp) (hb j) (by simp)
    have hc : copy w.mem (w.list i) (w.list j) = some (⟨h', b⟩, dst') := by
      unfold copy; rw [f1]; simp only; rw [rj.first]; exact g1
    refine ⟨_, by simp only [step]; rw [hc], fun k => if k = i then ds' else A k, ?_, ?_, ?_⟩
    · intro k
      by_cases hk : k = i
      · subst hk; simpa [setL, specStep, setS] using g2
      · simp only [setL, specStep, setS, hk, if_false]
        exact (hr1 k hk).frame (fun a ha => g6 a (by simp) (hb k a ha))
    · intro k a ha
      by_cases hk : k = i
      · subst hk; simp only [if_true] at ha; exact g4 a ha
      · simp only [hk, if_false] at ha
        have := hb k a ha
        simp only at g3; show a < b; omega
    · intro p q hpq a ha
      by_cases hp : p = i
      · subst hp
        simp only [if_true] at ha
        simp only [show ¬ q = p from fun h => hpq h.symm, if_false]
        intro h
        rcases g5 a ha with g | g
        · simp at g
        · have := hb q a h; simp only at g; omega
      · simp only [hp, if_false] at ha
        by_cases hq : q = i
        · subst hq
          simp only [if_true]
          intro h
          rcases g5 a h with g | g
          · simp at g
          · have := hb p a ha; simp only at g; omega
        · simp only [hq, if_false]; exact hdis p q hpq a ha
  | destroy i =>
    obtain ⟨h1, f1, f2⟩ := destroy_spec (hr i) (hb i)
    refine ⟨_, by simp only [step]; rw [f1], fun k => if k = i then [] else A k, ?_, ?_, ?_⟩
    · intro k
      by_cases hk : k = i
      · subst hk; simp only [setL, specStep, setS, if_true]; exact LRep.empty _
      · simp only [setL, specStep, setS, hk, if_false]
        exact (hr k).frame (fun a ha => f2 a (hdis k i hk a ha))
    · intro k a ha
      by_cases hk : k = i
      · simp [hk] at ha
      · simp only [hk, if_false] at ha; exact hb k a ha
    · intro p q hpq a ha
      by_cases hp : p = i
      · simp [hp] at ha
      · simp only [hp, if_false] at ha
        by_cases hq : q = i
        · simp [hq]
        · simp only [hq, if_false]; exact hdis p q hpq a ha

/-- What an observer of list `i` of the world sees agrees with the sequence `xs`: forward walk, backward walk, size (modulo
2^32), and search. Any fuel of at least `brk` (the number of nodes ever allocated) is enough for the loops to end. -/
def Shows (w : World α) (i : Nat) (xs : List α) : Prop :=
  ∀ fuel, w.mem.brk ≤ fuel →
    walkFwd w.mem.heap fuel (w.list i).first = some xs ∧ walkBwd w.mem.heap fuel (w.list i).last = some xs.reverse ∧
    (w.list i).size = xs.length % 4294967296 ∧ ∀ eq : α → Bool, find w.mem.heap eq fuel (w.list i).first = some (xs.find? eq)

/-- **C03** Starting from empty lists, after any sequence of insertions at either end, merges and copies between different
lists, and destructions: no NULL or freed node was dereferenced, and every list shows exactly the sequence it should, forward,
backward, in size and under search. -/
theorem C03_lists_are_sequences (ops : List (Op α)) (hd : ∀ op ∈ ops, op.Distinct) :
    ∃ w, run (start : World α) ops = some w ∧ ∀ i, Shows w i (specRun (fun _ => []) ops i) := by
  have aux : ∀ (ops : List (Op α)) (w : World α) (s : Nat → List α), (∀ op ∈ ops, op.Distinct) → WInv w s →
      ∃ w', run w ops = some w' ∧ WInv w' (specRun s ops) := by
    intro ops
    induction ops with
    | nil => intro w s _ h; exact ⟨w, rfl, h⟩
    | cons op ops ih =>
      intro w s hd h
      obtain ⟨w1, e1, e2⟩ := step_spec w s op h (hd op (by simp))
      obtain ⟨w2, f1, f2⟩ := ih w1 _ (fun o ho => hd o (by simp [ho])) e2
      exact ⟨w2, by simp only [run]; rw [e1]; exact f1, f2⟩
  obtain ⟨w, h1, A, hr, hb, _⟩ := aux ops start _ hd WInv.start
  refine ⟨w, h1, fun i fuel hf => ?_⟩
  have hlen := nodup_bounded_length w.mem.brk (A i) (hr i).nodup (hb i)
  rw [(hr i).first, (hr i).last]
  exact ⟨walkFwd_spec (hr i).dl (by omega), walkBwd_spec _ rfl (hr i).dl (by omega), (hr i).size,
    fun eq => find_spec eq (hr i).dl (by omega)⟩

/-- Non-trivial run: two lists, both ends, a merge, a copy. -/
example : (∀ op ∈ ([.insertEnd 0 1, .insertBegin 0 2, .insertEnd 1 7, .merge 0 1, .copy 2 0, .insertBegin 1 9] : List (Op Int)),
      op.Distinct) ∧
    (let s := specRun (fun _ => []) ([.insertEnd 0 1, .insertBegin 0 2, .insertEnd 1 7, .merge 0 1, .copy 2 0,
        .insertBegin 1 9] : List (Op Int))
     s 0 = [2, 1, 7] ∧ s 1 = [9] ∧ s 2 = [2, 1, 7]) := by
  refine ⟨by simp [Op.Distinct], by decide⟩

/-- **C03 fails when a list is merged with itself**: the header is reset although the list had elements. (No caller does it.) -/
theorem C03_self_merge_violated : ∃ w w' : World Int, run start [.insertEnd 0 5] = some w ∧
    step w (.merge 0 0) = some w' ∧ walkFwd w'.mem.heap 10 (w'.list 0).first = some [] := by
  refine ⟨_, _, rfl, rfl, rfl⟩

end Verif.DList
