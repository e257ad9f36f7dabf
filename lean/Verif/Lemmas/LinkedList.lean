import Verif.Model.LinkedList
/-! Helper lemmas for the linked list model. -/
namespace Verif.DList
variable {α : Type}

/-- `as` are linked nodes holding `xs`; the first one's Prev is `p`, the last one's Next is `n`. -/
def DL (h : Nat → Option (Node α)) : Option Nat → List Nat → List α → Option Nat → Prop
  | _, [],      [],      _ => True
  | p, a :: as, x :: xs, n => h a = some ⟨x, p, (as.head?).or n⟩ ∧ DL h (some a) as xs n
  | _, _,       _,       _ => False

theorem DL.length {h : Nat → Option (Node α)} : ∀ {p as xs n}, DL h p as xs n → as.length = xs.length := by
  intro p as
  induction as generalizing p with
  | nil => intro xs n hd; cases xs <;> simp_all [DL]
  | cons a as ih => intro xs n hd; cases xs with
    | nil => simp [DL] at hd
    | cons x xs => simp only [DL] at hd; simp [ih hd.2]

theorem DL.frame {h h' : Nat → Option (Node α)} : ∀ {p as xs n}, DL h p as xs n → (∀ a ∈ as, h' a = h a) → DL h' p as xs n := by
  intro p as
  induction as generalizing p with
  | nil => intro xs n hd _; cases xs <;> simp_all [DL]
  | cons a as ih => intro xs n hd hf; cases xs with
    | nil => simp [DL] at hd
    | cons x xs =>
      simp only [DL] at hd ⊢
      exact ⟨by rw [hf a (by simp)]; exact hd.1, ih hd.2 (fun b hb => hf b (by simp [hb]))⟩

theorem DL.append {h : Nat → Option (Node α)} : ∀ {p as xs bs ys n}, as.length = xs.length →
    (DL h p (as ++ bs) (xs ++ ys) n ↔ DL h p as xs (bs.head?.or n) ∧ DL h (as.getLast?.or p) bs ys n) := by
  intro p as
  induction as generalizing p with
  | nil => intro xs bs ys n hl; cases xs with
    | nil => simp [DL]
    | cons => simp at hl
  | cons a as ih => intro xs bs ys n hl; cases xs with
    | nil => simp at hl
    | cons x xs =>
      simp only [List.cons_append, DL]
      rw [ih (by simpa using hl)]
      have e1 : (as ++ bs).head?.or n = as.head?.or (bs.head?.or n) := by
        cases as <;> simp
      have e2 : (a :: as).getLast?.or p = as.getLast?.or (some a) := by
        cases as with
        | nil => simp
        | cons b as =>
          rw [List.getLast?_cons_cons]
          have : (b :: as).getLast?.isSome := by simp
          cases hg : (b :: as).getLast? with
          | none => simp [hg] at this
          | some c => simp
      rw [e1, e2, and_assoc]

/-- Header `l` describes the nodes `as` holding `xs`. -/
structure LRep (h : Nat → Option (Node α)) (l : Hdr) (as : List Nat) (xs : List α) : Prop where
  first : l.first = as.head?
  last  : l.last = as.getLast?
  size  : l.size = xs.length % W
  nodup : as.Nodup
  dl    : DL h none as xs none

theorem LRep.frame {h h' : Nat → Option (Node α)} {l as xs} (r : LRep h l as xs) (hf : ∀ a ∈ as, h' a = h a) : LRep h' l as xs :=
  ⟨r.first, r.last, r.size, r.nodup, r.dl.frame hf⟩

theorem LRep.empty (h : Nat → Option (Node α)) : LRep h init [] [] := ⟨rfl, rfl, rfl, List.nodup_nil, trivial⟩

theorem upd_same (h : Nat → Option (Node α)) (a v) : upd h a v a = v := by simp [upd]
theorem upd_other (h : Nat → Option (Node α)) (a b v) (hab : b ≠ a) : upd h a v b = h b := by simp [upd, hab]

theorem ne_of {as : List Nat} {a e : Nat} (ha : a ∈ as) (he : e ∉ as) : a ≠ e := fun h => he (h ▸ ha)

theorem size_succ (n : Nat) : (n % W + 1) % W = (n + 1) % W := by simp [Nat.add_mod]

theorem insertEnd_spec {m : Mem α} {l as xs} (r : LRep m.heap l as xs) (hb : ∀ a ∈ as, a < m.brk) (x : α) :
    ∃ h' l', insertEnd m l x = some (⟨h', m.brk + 1⟩, l') ∧ LRep h' l' (as ++ [m.brk]) (xs ++ [x]) ∧
      (∀ a, a ∉ as → a ≠ m.brk → h' a = m.heap a) := by
  have hlen := r.dl.length
  rcases List.eq_nil_or_concat as with he | ⟨as', e, he⟩
  · subst he
    have hx : xs = [] := by cases xs <;> simp_all
    subst hx
    have h1 := r.first; have h2 := r.last; have h3 := r.size
    simp at h1 h2 h3
    refine ⟨upd m.heap m.brk (some ⟨x, none, none⟩), ⟨(l.size + 1) % W, some m.brk, some m.brk⟩, ?_, ?_, ?_⟩
    · unfold insertEnd; rw [h1, h2]
    · refine ⟨rfl, rfl, ?_, by simp, ?_⟩
      · simp [h3]
      · simp [DL, upd_same]
    · intro a _ hab; exact upd_other _ _ _ _ hab
  · simp only [List.concat_eq_append] at he
    subst he
    rcases List.eq_nil_or_concat xs with hx | ⟨xs', y, hx⟩
    · subst hx; simp at hlen
    simp only [List.concat_eq_append] at hx
    subst hx
    have hlen' : as'.length = xs'.length := by simpa using hlen
    obtain ⟨d1, d2⟩ := (DL.append hlen').mp r.dl
    simp only [DL, List.head?_cons, List.head?_nil, Option.or_none, and_true] at d1 d2
    have hfirst : ∃ f, l.first = some f := by
      rw [r.first]; cases as' <;> simp
    obtain ⟨f, hf⟩ := hfirst
    have hlast : l.last = some e := by rw [r.last]; simp
    have hne : e ≠ m.brk := by have := hb e (by simp); omega
    have hnd := List.nodup_append.mp r.nodup
    have heas : e ∉ as' := fun h => hnd.2.2 e h e (by simp) rfl
    have hbas : ∀ a ∈ as', a ≠ m.brk := fun a ha => by have := hb a (by simp [ha]); omega
    refine ⟨upd (upd m.heap m.brk (some ⟨x, some e, none⟩)) e (some ⟨y, as'.getLast?, some m.brk⟩),
      ⟨(l.size + 1) % W, l.first, some m.brk⟩, ?_, ?_, ?_⟩
    · unfold insertEnd
      rw [hf, hlast]
      simp only
      rw [upd_other _ _ _ _ hne, d2]
    · refine ⟨?_, by simp, ?_, ?_, ?_⟩
      · rw [r.first]; simp [List.head?_append]
      · simp only; rw [r.size, size_succ]; simp
      · rw [List.nodup_append]
        refine ⟨r.nodup, by simp, ?_⟩
        intro a ha b hb'
        simp at hb'
        subst hb'
        have := hb a ha; omega
      · have hm : DL (upd (upd m.heap m.brk (some ⟨x, some e, none⟩)) e (some ⟨y, as'.getLast?, some m.brk⟩))
            none (as' ++ ([e] ++ [m.brk])) (xs' ++ ([y] ++ [x])) none := by
          rw [DL.append hlen']
          refine ⟨?_, ?_⟩
          · refine DL.frame (h := m.heap) (by simpa using d1) ?_
            intro a ha
            rw [upd_other _ _ _ _ (ne_of ha heas), upd_other _ _ _ _ (hbas a ha)]
          · simp only [List.cons_append, List.nil_append, DL, and_true, List.head?_cons, List.head?_nil,
              Option.or_none]
            exact ⟨upd_same _ _ _, by rw [upd_other _ _ _ _ hne.symm, upd_same]⟩
        simpa using hm
    · intro a ha hab
      rw [upd_other _ _ _ _ (fun h => ha (by simp [h])), upd_other _ _ _ _ hab]

theorem insertBegin_spec {m : Mem α} {l as xs} (r : LRep m.heap l as xs) (hb : ∀ a ∈ as, a < m.brk) (x : α) :
    ∃ h' l', insertBegin m l x = some (⟨h', m.brk + 1⟩, l') ∧ LRep h' l' (m.brk :: as) (x :: xs) ∧
      (∀ a, a ∉ as → a ≠ m.brk → h' a = m.heap a) := by
  cases as with
  | nil =>
    have hx : xs = [] := by have := r.dl.length; cases xs <;> simp_all
    subst hx
    have h1 := r.first; have h2 := r.last; have h3 := r.size
    simp at h1 h2 h3
    refine ⟨upd m.heap m.brk (some ⟨x, none, none⟩), ⟨(l.size + 1) % W, some m.brk, some m.brk⟩, ?_, ?_, ?_⟩
    · unfold insertBegin; rw [h1, h2]
    · refine ⟨rfl, rfl, ?_, by simp, ?_⟩
      · simp [h3]
      · simp [DL, upd_same]
    · intro a _ hab; exact upd_other _ _ _ _ hab
  | cons f as =>
    cases xs with
    | nil => exact absurd r.dl (by simp [DL])
    | cons y xs =>
      have d := r.dl
      simp only [DL, Option.or_none] at d
      have hfirst : l.first = some f := by rw [r.first]; rfl
      have hlast : ∃ e, l.last = some e := by
        rw [r.last]
        cases hg : (f :: as).getLast? with
        | none => simp at hg
        | some e => exact ⟨e, rfl⟩
      obtain ⟨e, hlast⟩ := hlast
      have hne : f ≠ m.brk := by have := hb f (by simp); omega
      have hnd := List.nodup_cons.mp r.nodup
      have hbas : ∀ a ∈ as, a ≠ m.brk := fun a ha => by have := hb a (by simp [ha]); omega
      refine ⟨upd (upd m.heap m.brk (some ⟨x, none, some f⟩)) f (some ⟨y, some m.brk, as.head?⟩),
        ⟨(l.size + 1) % W, some m.brk, l.last⟩, ?_, ?_, ?_⟩
      · unfold insertBegin
        rw [hfirst, hlast]
        simp only
        rw [upd_other _ _ _ _ hne, d.1]
      · refine ⟨rfl, ?_, ?_, ?_, ?_⟩
        · simp only; rw [r.last, List.getLast?_cons_cons]
        · simp only; rw [r.size, size_succ]; simp
        · rw [List.nodup_cons]
          refine ⟨?_, r.nodup⟩
          intro h
          have := hb _ h; omega
        · simp only [DL, List.head?_cons, Option.or_none]
          refine ⟨by rw [upd_other _ _ _ _ hne.symm, upd_same], upd_same _ _ _, ?_⟩
          refine d.2.frame ?_
          intro a ha
          rw [upd_other _ _ _ _ (ne_of ha hnd.1), upd_other _ _ _ _ (hbas a ha)]
      · intro a ha hab
        rw [upd_other _ _ _ _ (fun h => ha (by simp [h])), upd_other _ _ _ _ hab]

theorem merge_spec {m : Mem α} {l1 l2 as bs xs ys} (r1 : LRep m.heap l1 as xs) (r2 : LRep m.heap l2 bs ys)
    (hd : ∀ a ∈ as, a ∉ bs) :
    ∃ h' l1' l2', merge m l1 l2 = some (⟨h', m.brk⟩, l1', l2') ∧ LRep h' l1' (as ++ bs) (xs ++ ys) ∧ l2' = init ∧
      (∀ a, a ∉ as → a ∉ bs → h' a = m.heap a) := by
  cases as with
  | nil =>
    have hx : xs = [] := by have := r1.dl.length; cases xs <;> simp_all
    subst hx
    have h1 := r1.first; simp at h1
    refine ⟨m.heap, l2, init, by unfold merge; rw [h1], by simpa using r2, rfl, fun _ _ _ => rfl⟩
  | cons f as0 =>
    have hlen1 := r1.dl.length
    rcases List.eq_nil_or_concat xs with hx | ⟨xs', y, hx⟩
    · subst hx; simp at hlen1
    simp only [List.concat_eq_append] at hx
    subst hx
    cases bs with
    | nil =>
      have hy : ys = [] := by have := r2.dl.length; cases ys <;> simp_all
      subst hy
      have h1 := r1.first; have h2 := r2.first; have h3 := r2.last; have h4 := r2.size
      simp at h1 h2 h3 h4
      refine ⟨m.heap, l1, l2, by unfold merge; rw [h1, h2], by simpa using r1, ?_, fun _ _ _ => rfl⟩
      cases l2; simp_all [init]
    | cons g bs =>
      cases ys with
      | nil => exact absurd r2.dl (by simp [DL])
      | cons z ys =>
        rcases List.eq_nil_or_concat (f :: as0) with he | ⟨as', e, he⟩
        · cases he
        simp only [List.concat_eq_append] at he
        have h1 := r1.first; have h2 := r2.first
        simp only [List.head?_cons] at h1 h2
        rw [he] at r1 hd hlen1 ⊢
        have hlen' : as'.length = xs'.length := by simpa using hlen1
        obtain ⟨d1, d2⟩ := (DL.append hlen').mp r1.dl
        simp only [DL, List.head?_cons, List.head?_nil, Option.or_none, and_true] at d1 d2
        have d3 := r2.dl
        simp only [DL, Option.or_none] at d3
        have hlast : l1.last = some e := by rw [r1.last]; simp
        have hge : g ≠ e := fun h => hd e (by simp) (by simp [h])
        have hnd1 := List.nodup_append.mp r1.nodup
        have hnd2 := List.nodup_cons.mp r2.nodup
        have heas : e ∉ as' := fun h => hnd1.2.2 e h e (by simp) rfl
        refine ⟨upd (upd m.heap e (some ⟨y, as'.getLast?, some g⟩)) g (some ⟨z, some e, bs.head?⟩),
          { size := (l1.size + l2.size) % W, first := l1.first, last := l2.last }, init, ?_, ?_, rfl, ?_⟩
        · unfold merge
          rw [h1, h2, hlast]
          simp only
          rw [d2]
          simp only
          rw [upd_other _ _ _ _ hge, d3.1]
        · refine ⟨?_, ?_, ?_, ?_, ?_⟩
          · show l1.first = _
            rw [r1.first]; simp [List.head?_append]
          · show l2.last = _
            rw [r2.last]
            rw [List.getLast?_append]
            have : (g :: bs).getLast?.isSome := by simp
            cases hg : (g :: bs).getLast? with
            | none => simp [hg] at this
            | some c => simp
          · simp only
            rw [r1.size, r2.size, ← Nat.add_mod]; simp; congr 1; omega
          · rw [List.nodup_append]
            refine ⟨r1.nodup, r2.nodup, ?_⟩
            intro a ha b hb hab
            exact hd a ha (hab ▸ hb)
          · rw [List.append_assoc, List.append_assoc, DL.append hlen']
            refine ⟨?_, ?_⟩
            · refine DL.frame (h := m.heap) (by simpa using d1) ?_
              intro a ha
              rw [upd_other _ _ _ _ (fun h => hd g (by simp [← h, ha]) (by simp)), upd_other _ _ _ _ (ne_of ha heas)]
            · simp only [List.cons_append, List.nil_append, DL, List.head?_cons, Option.or_none]
              refine ⟨by rw [upd_other _ _ _ _ hge.symm, upd_same], upd_same _ _ _, ?_⟩
              refine d3.2.frame ?_
              intro a ha
              rw [upd_other _ _ _ _ (ne_of ha hnd2.1), upd_other _ _ _ _ (fun h => hd e (by simp) (by simp [← h, ha]))]
        · intro a ha hb'
          rw [upd_other _ _ _ _ (fun h => hb' (by simp [h])), upd_other _ _ _ _ (fun h => ha (by simp [h]))]

theorem walkFwd_spec {h : Nat → Option (Node α)} : ∀ {as p xs k}, DL h p as xs none → as.length ≤ k →
    walkFwd h k as.head? = some xs := by
  intro as
  induction as with
  | nil => intro p xs k d _; cases xs with
    | nil => cases k <;> rfl
    | cons => simp [DL] at d
  | cons a as ih => intro p xs k d hk; cases xs with
    | nil => simp [DL] at d
    | cons x xs =>
      simp only [DL, Option.or_none] at d
      cases k with
      | zero => simp at hk
      | succ k =>
        simp only [List.head?_cons, walkFwd]
        rw [d.1]
        simp only
        rw [ih d.2 (by simpa using hk)]

theorem find_spec {h : Nat → Option (Node α)} (eq : α → Bool) : ∀ {as p xs k}, DL h p as xs none → as.length ≤ k →
    find h eq k as.head? = some (xs.find? eq) := by
  intro as
  induction as with
  | nil => intro p xs k d _; cases xs with
    | nil => cases k <;> rfl
    | cons => simp [DL] at d
  | cons a as ih => intro p xs k d hk; cases xs with
    | nil => simp [DL] at d
    | cons x xs =>
      simp only [DL, Option.or_none] at d
      cases k with
      | zero => simp at hk
      | succ k =>
        simp only [List.head?_cons, find]
        rw [d.1]
        simp only [List.find?_cons]
        cases hx : eq x
        · simp only [Bool.false_eq_true, if_false]; exact ih d.2 (by simpa using hk)
        · simp

theorem walkBwd_spec {h : Nat → Option (Node α)} : ∀ (n : Nat) {as xs k q}, as.length = n → DL h none as xs q → as.length ≤ k →
    walkBwd h k as.getLast? = some xs.reverse := by
  intro n
  induction n with
  | zero =>
    intro as xs k q hn d _
    have := List.eq_nil_of_length_eq_zero hn
    subst this
    cases xs with
    | nil => cases k <;> rfl
    | cons => simp [DL] at d
  | succ n ih =>
    intro as xs k q hn d hk
    rcases List.eq_nil_or_concat as with he | ⟨as', e, he⟩
    · subst he; simp at hn
    simp only [List.concat_eq_append] at he
    subst he
    have hlen := d.length
    rcases List.eq_nil_or_concat xs with hx | ⟨xs', y, hx⟩
    · subst hx; simp at hlen
    simp only [List.concat_eq_append] at hx
    subst hx
    have hlen' : as'.length = xs'.length := by simpa using hlen
    obtain ⟨d1, d2⟩ := (DL.append hlen').mp d
    simp only [DL, Option.or_none, and_true] at d2
    cases k with
    | zero => simp at hk
    | succ k =>
      simp only [List.getLast?_append, List.getLast?_singleton, Option.some_or, walkBwd]
      rw [d2]
      simp only
      rw [ih (by simpa using hn) d1 (by simpa using hk)]
      simp

theorem destroyLoop_spec {h : Nat → Option (Node α)} : ∀ {as p xs k}, DL h p as xs none → as.Nodup → as.length ≤ k →
    ∃ h', destroyLoop k h as.head? = some h' ∧ (∀ a, a ∉ as → h' a = h a) := by
  intro as
  induction as generalizing h with
  | nil => intro p xs k d _ _; exact ⟨h, by cases k <;> rfl, fun _ _ => rfl⟩
  | cons a as ih => intro p xs k d hnd hk; cases xs with
    | nil => simp [DL] at d
    | cons x xs =>
      simp only [DL, Option.or_none] at d
      have hnd' := List.nodup_cons.mp hnd
      cases k with
      | zero => simp at hk
      | succ k =>
        have d' : DL (upd h a none) (some a) as xs none :=
          d.2.frame (fun b hb => upd_other _ _ _ _ (fun e => hnd'.1 (e ▸ hb)))
        obtain ⟨h', e1, e2⟩ := ih d' hnd'.2 (by simpa using hk)
        refine ⟨h', ?_, ?_⟩
        · simp only [List.head?_cons, destroyLoop]
          rw [d.1]
          exact e1
        · intro b hb
          simp only [List.mem_cons, not_or] at hb
          rw [e2 b hb.2, upd_other _ _ _ _ hb.1]

theorem nodup_bounded_length : ∀ (n : Nat) (as : List Nat), as.Nodup → (∀ a ∈ as, a < n) → as.length ≤ n := by
  intro n
  induction n with
  | zero =>
    intro as _ hb
    cases as with
    | nil => simp
    | cons a as => exact absurd (hb a (by simp)) (by omega)
  | succ n ih =>
    intro as hnd hb
    have h1 := ih (as.erase n) (hnd.erase n) (by
      intro a ha
      have h2 := (List.Nodup.mem_erase_iff hnd).mp ha
      have := hb a h2.2
      omega)
    have h3 : as.length ≤ (as.erase n).length + 1 := by
      rw [List.length_erase]; split <;> omega
    omega

theorem destroy_spec {m : Mem α} {l as xs} (r : LRep m.heap l as xs) (hb : ∀ a ∈ as, a < m.brk) :
    ∃ h', destroy m l = some (⟨h', m.brk⟩, init) ∧ (∀ a, a ∉ as → h' a = m.heap a) := by
  have hl := nodup_bounded_length m.brk as r.nodup hb
  obtain ⟨h', e1, e2⟩ := destroyLoop_spec (k := m.brk + 1) r.dl r.nodup (by omega)
  exact ⟨h', by unfold destroy; rw [r.first, e1], e2⟩

theorem copyLoop_spec : ∀ (as : List Nat) {m : Mem α} {p xs k dst ds ys}, DL m.heap p as xs none → as.length ≤ k →
    LRep m.heap dst ds ys → (∀ a ∈ ds, a < m.brk) → (∀ a ∈ as, a < m.brk) → (∀ a ∈ as, a ∉ ds) →
    ∃ h' b dst' ds', copyLoop k m as.head? dst = some (⟨h', b⟩, dst') ∧ LRep h' dst' ds' (ys ++ xs) ∧ m.brk ≤ b ∧
      (∀ a ∈ ds', a < b) ∧ (∀ a ∈ ds', a ∈ ds ∨ m.brk ≤ a) ∧ (∀ a, a ∉ ds → a < m.brk → h' a = m.heap a) := by
  intro as
  induction as with
  | nil =>
    intro m p xs k dst ds ys d _ r hb _ _
    cases xs with
    | cons => simp [DL] at d
    | nil =>
      exact ⟨m.heap, m.brk, dst, ds, by cases k <;> rfl, by simpa using r, Nat.le_refl _, hb, fun a ha => Or.inl ha,
        fun _ _ _ => rfl⟩
  | cons a as ih =>
    intro m p xs k dst ds ys d hk r hb hba hdis
    cases xs with
    | nil => simp [DL] at d
    | cons x xs =>
      simp only [DL, Option.or_none] at d
      cases k with
      | zero => simp at hk
      | succ k =>
        obtain ⟨h1, l1, e1, e2, e3⟩ := insertEnd_spec r hb x
        have hsame : ∀ b ∈ a :: as, h1 b = m.heap b := fun b hb' =>
          e3 b (hdis b hb') (by have := hba b hb'; omega)
        have d' : DL h1 (some a) as xs none := d.2.frame (fun b hb' => hsame b (by simp [hb']))
        have hdsb : ∀ c ∈ ds ++ [m.brk], c < m.brk + 1 := by
          intro c hc
          simp only [List.mem_append, List.mem_singleton] at hc
          rcases hc with hc | hc
          · have := hb c hc; omega
          · omega
        obtain ⟨h', b, dst', ds', f1, f2, f3, f4, f5, f6⟩ := ih (m := ⟨h1, m.brk + 1⟩) (k := k) d' (by simpa using hk) e2 hdsb
          (fun c hc => by have := hba c (by simp [hc]); show c < m.brk + 1; omega)
          (fun c hc => by
            have h1 := hdis c (by simp [hc])
            have h2 := hba c (by simp [hc])
            simp only [List.mem_append, List.mem_singleton, not_or]
            exact ⟨h1, by omega⟩)
        refine ⟨h', b, dst', ds', ?_, by simpa using f2, ?_, f4, ?_, ?_⟩
        · simp only [List.head?_cons, copyLoop]
          rw [d.1]
          simp only
          rw [e1]
          simp only
          rw [hsame a (by simp), d.1]
          exact f1
        · simp only at f3; omega
        · intro c hc
          rcases f5 c hc with h | h
          · simp only [List.mem_append, List.mem_singleton] at h
            rcases h with h | h
            · exact Or.inl h
            · exact Or.inr (by omega)
          · simp only at h; exact Or.inr (by omega)
        · intro c hc hcb
          rw [f6 c (by simp only [List.mem_append, List.mem_singleton, not_or]; exact ⟨hc, by omega⟩) (by show c < m.brk + 1; omega)]
          exact e3 c hc (by omega)

end Verif.DList
