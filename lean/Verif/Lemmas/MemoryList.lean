import Verif.Lemmas.Memory

/-! The laws of the typed lists (sources/list_template.c) in the memory model. -/

set_option linter.unusedSectionVars false
set_option linter.unusedSimpArgs false
set_option linter.unusedVariables false

namespace Verif.Own

/-- From the pointer `p` on, the nodes of a doubly linked list with the values `vs`; `prev` is the node before, `last` the last node (or `prev`, if there is none). -/
def Chain {α V : Type} (R : Rel α V) (h : Heap) : List V → Ptr → Ptr → Ptr → Finset Nat → Prop
  | [], p, prev, last, s => p = none ∧ last = prev ∧ s = ∅
  | v :: vs, p, prev, last, s => ∃ q d nx s1 s2, p = some q ∧ Has h q (⟨d, prev, nx⟩ : Node α) ∧ R h d v s1 ∧ Chain R h vs nx (some q) last s2 ∧
      q ∉ s1 ∧ q ∉ s2 ∧ Disjoint s1 s2 ∧ s = insert q (s1 ∪ s2)

/-- A list: its size, and its nodes linked in both directions. -/
def RList {α V : Type} (R : Rel α V) : Rel ListS (List V) := fun h l vs s => l.size = vs.length ∧ Chain R h vs l.first none l.last s

section
variable {α V : Type} {C : Cls α} {R : Rel α V} {v0 : V}

theorem chain_frame (l : Local R) {h h' : Heap} {vs : List V} : ∀ {p prev last s}, Chain R h vs p prev last s →
    (∀ p ∈ s, h'.cells p = h.cells p) → Chain R h' vs p prev last s := by
  induction vs with
  | nil => intro p prev last s c _; exact c
  | cons v vs ih =>
    rintro p prev last s ⟨q, d, nx, s1, s2, e, hq, r, c, n1, n2, dj, rfl⟩ f
    exact ⟨q, d, nx, s1, s2, e, (f q (by simp)).trans hq, l.frame r fun p hp => f p (by simp [hp]), ih c fun p hp => f p (by simp [hp]), n1, n2, dj, rfl⟩

theorem chain_live (l : Local R) {h : Heap} {vs : List V} : ∀ {p prev last s}, Chain R h vs p prev last s → ∀ x ∈ s, h.cells x ≠ none := by
  induction vs with
  | nil => rintro p prev last s ⟨_, _, rfl⟩ x hx; simp at hx
  | cons v vs ih =>
    rintro p prev last s ⟨q, d, nx, s1, s2, e, hq, r, c, n1, n2, dj, rfl⟩ x hx
    rcases Finset.mem_insert.1 hx with rfl | m
    · exact hq.live
    · rcases Finset.mem_union.1 m with m | m
      · exact l.live r x m
      · exact ih c x m

theorem Local.list (l : Local R) : Local (RList R) where
  frame r f := ⟨r.1, chain_frame l r.2 f⟩
  live r := chain_live l r.2

theorem chain_card {h : Heap} {vs : List V} : ∀ {p prev last s}, Chain R h vs p prev last s → vs.length ≤ s.card := by
  induction vs with
  | nil => intro p prev last s _; simp
  | cons v vs ih =>
    rintro p prev last s ⟨q, d, nx, s1, s2, e, hq, r, c, n1, n2, dj, rfl⟩
    rw [Finset.card_insert_of_notMem (by simp [n1, n2]), List.length_cons]
    have := ih c
    have := Finset.card_le_card (Finset.subset_union_right (s₁ := s1) (s₂ := s2))
    omega

theorem chain_bound (l : Local R) {h : Heap} {vs : List V} {p prev last s} (c : Chain R h vs p prev last s) : vs.length ≤ h.next := by
  refine le_trans (chain_card c) ?_
  have : s ⊆ Finset.range h.next := fun x hx => Finset.mem_range.2 (h.ok x (chain_live l c x hx))
  simpa using Finset.card_le_card this

theorem destroyLoop_spec (l : Local R) (d : Dest R C.destroy) {vs : List V} : ∀ {h p prev last s} (n : Nat), vs.length ≤ n →
    Chain R h vs p prev last s → destroyLoop C n p h = some ((), h.minus s) := by
  induction vs with
  | nil =>
    rintro h p prev last s n _ ⟨rfl, _, rfl⟩
    rw [minus_empty]
    cases n <;> rfl
  | cons v vs ih =>
    rintro h p prev last s n hn ⟨q, a, nx, s1, s2, rfl, hq, r, c, n1, n2, dj, rfl⟩
    obtain ⟨m, rfl⟩ : ∃ m, n = m + 1 := ⟨n - 1, by simp at hn; omega⟩
    obtain ⟨x, ex⟩ := d _ _ _ _ r
    have c' : Chain R (h.minus (insert q s1)) vs nx (some q) last s2 := chain_frame l c fun p hp => minus_other _ _ (by
      intro m
      rcases Finset.mem_insert.1 m with rfl | m
      · exact n2 hp
      · exact Finset.disjoint_left.1 dj m hp)
    have b := destroy_block (x := (⟨a, prev, nx⟩ : Node α)) (w := fun d => (⟨d, prev, nx⟩ : Node α)) ex hq.live n1
    simp only [destroyLoop]
    rw [step (load_eq hq)]
    have : ∀ (X : M Unit), (C.destroy a >>= fun d => store q (⟨d, prev, nx⟩ : Node α) >>= fun _ => free q >>= fun _ => X)
        = (C.destroy a >>= fun d => store q (⟨d, prev, nx⟩ : Node α) >>= fun _ => free q) >>= fun _ => X := by
      intro X; simp only [bind_assoc]
    rw [this, step b, ih m (by simp at hn; omega) c', minus_minus]
    congr 3
    rw [Finset.insert_union]

theorem Dest.list (l : Local R) (d : Dest R C.destroy) : Dest (RList R) (listDestroy C) := by
  rintro h a v s ⟨_, c⟩
  refine ⟨listInit, ?_⟩
  have e : bounded (fun n => destroyLoop C n a.first) h = some ((), h.minus s) :=
    destroyLoop_spec l d _ (le_trans (chain_bound l c) (Nat.le_succ _)) c
  unfold listDestroy
  rw [step e]
  rfl

theorem listDestroy_res {a : ListS} {h d h'} (e : listDestroy C a h = some (d, h')) : d = listInit := result_pure e

/-- The last node of a list with at least one node, and what appending does. -/
theorem chain_snoc (l : Local R) {h h' : Heap} {vs : List V} {v : V} {p : Nat} {t : Finset Nat} {q : Nat} : ∀ {f prev s}, Chain R h vs f prev (some q) s → vs ≠ [] →
    ∃ nd : Node α, q ∈ s ∧ Has h q nd ∧ ((∀ x ∈ s, x ≠ q → h'.cells x = h.cells x) → Has h' q (⟨nd.data, nd.prev, some p⟩ : Node α) →
      Chain R h' [v] (some p) (some q) (some p) t → Disjoint s t → Chain R h' (vs ++ [v]) f prev (some p) (s ∪ t)) := by
  induction vs with
  | nil => intro f prev s _ h; exact absurd rfl h
  | cons w vs ih =>
    rintro f prev s ⟨q', d, nx, s1, s2, rfl, hq, r, c, n1, n2, dj, rfl⟩ _
    by_cases hv : vs = []
    · subst hv
      obtain ⟨rfl, e, rfl⟩ := c
      obtain rfl : q = q' := by injection e
      refine ⟨_, by simp, hq, fun hs hq' ct dt => ⟨q, d, some p, s1, t, rfl, hq', l.frame r fun x hx => hs x (by simp [hx]) (by rintro rfl; exact n1 hx), ct, n1, ?_, ?_, ?_⟩⟩
      · exact Finset.disjoint_left.1 dt (by simp)
      · exact Finset.disjoint_of_subset_left (by intro x hx; simp [hx]) dt
      · simp
    · obtain ⟨nd, mq, hn, k⟩ := ih c hv
      have ne : q ≠ q' := by rintro rfl; exact n2 mq
      refine ⟨nd, by simp [mq], hn, fun hs hq' ct dt => ⟨q', d, nx, s1, s2 ∪ t, rfl, ?_, ?_, ?_, n1, ?_, ?_, ?_⟩⟩
      · exact (hs q' (by simp) (Ne.symm ne)).trans hq
      · exact l.frame r fun x hx => hs x (by simp [hx]) (by rintro rfl; exact Finset.disjoint_left.1 dj hx mq)
      · exact k (fun x hx e => hs x (by simp [hx]) e) hq' ct (Finset.disjoint_of_subset_left (by intro x hx; simp [hx]) dt)
      · have : q' ∉ t := Finset.disjoint_left.1 dt (by simp)
        simp [n2, this]
      · exact Finset.disjoint_union_right.2 ⟨dj, Finset.disjoint_of_subset_left (by intro x hx; simp [hx]) dt⟩
      · ext x; simp [or_assoc]

theorem chain_last {h : Heap} {vs : List V} : ∀ {f prev last s}, Chain R h vs f prev last s → vs ≠ [] → (∃ p, f = some p) ∧ ∃ q, last = some q := by
  induction vs with
  | nil => intro f prev last s _ h; exact absurd rfl h
  | cons w vs ih =>
    rintro f prev last s ⟨q', d, nx, s1, s2, rfl, hq, r, c, n1, n2, dj, rfl⟩ _
    refine ⟨⟨_, rfl⟩, ?_⟩
    by_cases hv : vs = []
    · subst hv; exact ⟨q', c.2.1⟩
    · exact (ih c hv).2

/-- Appending an element to a list that was allocated after `h0`. -/
theorem insertEnd_spec (lw : Lawful C R v0) {h0 h : Heap} {l : ListS} {ws : List V} {t : Finset Nat} {a : α} {v : V} {s : Finset Nat}
    (n : New h0 h t) (rl : RList R h l ws t) (ra : R h a v s) :
    ∃ l' h' t', insertEnd C l a h = some (l', h') ∧ New h0 h' t' ∧ RList R h' l' (ws ++ [v]) t' := by
  obtain ⟨sz, ch⟩ := rl
  have L := lw.loc
  have n1 := plus_new h (⟨C.init, none, none⟩ : Node α)
  obtain ⟨d, k, u, ed, n2, rd⟩ := lw.dup _ _ _ _ (L.new ra n1)
  have hk : k.cells h.next ≠ none := by rw [n2.old _ (Nat.lt_succ_self _)]; exact (plus_has h _).live
  have nu : h.next ∉ u := fun m => absurd (n2.above _ m) (Nat.not_succ_le_self _)
  have nt : h.next ∉ t := fun m => absurd (n.below _ m) (lt_irrefl _)
  have n12 := n1.trans n2
  have n012 := n.trans n12
  have dtu : Disjoint t ({h.next} ∪ u) := n.disjoint n12
  unfold insertEnd
  rw [step (alloc_eq _ _), step ed, step (store_eq _ hk)]
  by_cases hw : ws = []
  · subst hw
    obtain ⟨ef, el, rfl⟩ := ch
    rw [ef, el]
    refine ⟨⟨l.size + 1, some h.next, some h.next⟩, _, insert h.next u, rfl, ?_, ?_⟩
    · have := n012.set h.next ⟨Node α, ⟨d, none, none⟩⟩ hk (by simp)
      rwa [Finset.empty_union] at this
    · refine ⟨by simp [sz], h.next, d, none, u, ∅, rfl, set_has _ _ _ _, ?_, ⟨rfl, rfl, rfl⟩, nu, by simp, by simp, by simp⟩
      exact L.frame rd fun p hp => set_other _ _ _ _ fun e => nu (e ▸ hp)
  · obtain ⟨⟨f, ef⟩, q, el⟩ := chain_last ch hw
    rw [ef, el] at ch
    rw [ef, el]
    have lq := (chain_snoc (h' := h) (v := v) (p := h.next) (t := ∅) L ch hw)
    obtain ⟨nd, mq, hq, _⟩ := lq
    have qlt : q < h.next := h.ok q hq.live
    have qne : q ≠ h.next := by omega
    have hk2 : (k.set h.next ⟨Node α, ⟨d, none, none⟩⟩ hk).cells h.next ≠ none := (set_has _ _ _ _).live
    have hq2 : Has ((k.set h.next ⟨Node α, ⟨d, none, none⟩⟩ hk).set h.next ⟨Node α, ⟨d, some q, none⟩⟩ hk2) q nd := by
      unfold Has
      rw [set_other _ _ _ _ qne, set_other _ _ _ _ qne, n12.old q qlt]
      exact hq
    refine ⟨⟨l.size + 1, some f, some h.next⟩, (((k.set h.next ⟨Node α, ⟨d, none, none⟩⟩ hk).set h.next ⟨Node α, ⟨d, some q, none⟩⟩ hk2).set q
      ⟨Node α, ⟨nd.data, nd.prev, some h.next⟩⟩ hq2.live), t ∪ insert h.next u, ?_, ?_, ?_⟩
    · show (store h.next (⟨d, some q, none⟩ : Node α) >>= _) _ = _
      rw [step (store_eq _ hk2), step (load_eq hq2), step (store_eq _ hq2.live)]
      rfl
    · have e : t ∪ insert h.next u = t ∪ ({h.next} ∪ u) := by ext; simp
      rw [e]
      exact ((n012.set _ _ _ (by simp)).set _ _ _ (by simp)).set _ _ _ (by simp [mq])
    · refine ⟨by simp [sz], ?_⟩
      obtain ⟨nd', mq', hq', app⟩ := chain_snoc (h' := ((k.set h.next ⟨Node α, ⟨d, none, none⟩⟩ hk).set h.next ⟨Node α, ⟨d, some q, none⟩⟩ hk2).set q
        ⟨Node α, ⟨nd.data, nd.prev, some h.next⟩⟩ hq2.live) (v := v) (p := h.next) (t := insert h.next u) L ch hw
      have end' : nd' = nd := by
        unfold Has at hq hq'
        rw [hq] at hq'
        injection hq' with e
        exact (eq_of_heq (Sigma.mk.inj e).2).symm
      subst end'
      have qu : q ∉ u := fun m => absurd (n2.above _ m) (by show ¬ h.next + 1 ≤ q; omega)
      refine app (fun x hx hne => ?_) (set_has _ _ _ _) ⟨h.next, d, none, u, ∅, rfl, ?_, ?_, ⟨rfl, rfl, rfl⟩, nu, by simp, by simp, by simp⟩ ?_
      · have xne : x ≠ h.next := by rintro rfl; exact nt hx
        rw [set_other _ _ _ _ hne, set_other _ _ _ _ xne, set_other _ _ _ _ xne]
        exact n12.old x (n.below x hx)
      · unfold Has
        rw [set_other _ _ _ _ (Ne.symm qne)]
        exact set_has _ _ _ _
      · refine L.frame rd fun p hp => ?_
        have pne : p ≠ h.next := fun e => nu (e ▸ hp)
        rw [set_other _ _ _ _ (by rintro rfl; exact qu hp), set_other _ _ _ _ pne, set_other _ _ _ _ pne]
      · have e : insert h.next u = {h.next} ∪ u := by ext; simp
        rw [e]; exact dtu

theorem copyLoop_spec (lw : Lawful C R v0) {h0 : Heap} {vs : List V} : ∀ {p prev last s} {h : Heap} {l : ListS} {ws : List V} {t : Finset Nat} (n : Nat),
    vs.length ≤ n → Chain R h0 vs p prev last s → New h0 h t → RList R h l ws t →
    ∃ l' h' t', copyLoop C n p l h = some (l', h') ∧ New h0 h' t' ∧ RList R h' l' (ws ++ vs) t' := by
  induction vs with
  | nil =>
    rintro p prev last s h l ws t n _ ⟨rfl, _, rfl⟩ nw rl
    refine ⟨l, h, t, by cases n <;> rfl, nw, by simpa using rl⟩
  | cons v vs ih =>
    rintro p prev last s h l ws t n hn ⟨q, a, nx, s1, s2, rfl, hq, r, c, n1, n2, dj, rfl⟩ nw rl
    obtain ⟨m, rfl⟩ : ∃ m, n = m + 1 := ⟨n - 1, by simp at hn; omega⟩
    have hq' : Has h q (⟨a, prev, nx⟩ : Node α) := (nw.old q (h0.ok q hq.live)).trans hq
    obtain ⟨l1, h1, t1, e1, nw1, rl1⟩ := insertEnd_spec lw nw rl (lw.loc.new r nw)
    obtain ⟨l2, h2, t2, e2, nw2, rl2⟩ := ih m (by simp at hn; omega) c nw1 rl1
    refine ⟨l2, h2, t2, ?_, nw2, by simpa using rl2⟩
    simp only [copyLoop]
    rw [step (load_eq hq'), step e1]
    exact e2

theorem listDestroy_init : listDestroy C listInit = pure listInit := rfl

theorem listCopy_init (src : ListS) : listCopy C listInit src = bounded fun n => copyLoop C n src.first listInit := by
  unfold listCopy
  rw [listDestroy_init, pure_bind]

theorem Dup.list (lw : Lawful C R v0) : Dup (RList R) (listCopy C listInit) := by
  rintro h a v s ⟨_, c⟩
  rw [listCopy_init]
  exact copyLoop_spec lw _ (le_trans (chain_bound lw.loc c) (Nat.le_succ _)) c (New.refl h) (ws := []) ⟨rfl, rfl, rfl, rfl⟩

theorem listCopy_re (d a : ListS) : listCopy C d a = listDestroy C d >>= fun _ => listCopy C listInit a := by
  simp only [listCopy_init]
  unfold listCopy listDestroy
  simp only [bind_assoc, pure_bind]

theorem list_lawful (lw : Lawful C R v0) : Lawful (list C) (RList R) [] :=
  Lawful.mk' lw.loc.list (fun h => ⟨rfl, rfl, rfl, rfl⟩) (Dest.list lw.loc lw.dest) (fun a h d h' e => listDestroy_res e) (Dup.list lw) listCopy_re

end
end Verif.Own
