import Verif.Model.Memory
import Verif.Props.PowersQueue
import Mathlib.Data.Finset.Card
import Mathlib.Data.Finset.Range
import Mathlib.Tactic.Ring

/-! Laws of the memory model: what an object owns, and what destroying and copying do to the heap. -/

set_option linter.unusedSectionVars false
set_option linter.unusedSimpArgs false
set_option linter.unusedVariables false

namespace Verif.Own

/-! ### The monad and the heap -/

theorem Heap.ext' {h k : Heap} (hc : ∀ p, h.cells p = k.cells p) (hn : h.next = k.next) : h = k := by
  obtain ⟨c, n, o⟩ := h
  obtain ⟨c', n', o'⟩ := k
  have e : c = c' := funext hc
  subst e
  have e : n = n' := hn
  subst e
  rfl

theorem M.bind_apply {α β : Type} (m : M α) (f : α → M β) (h : Heap) : (m >>= f) h = (m h).bind fun r => f r.1 r.2 := rfl
theorem M.pure_apply {α : Type} (x : α) (h : Heap) : (pure x : M α) h = some (x, h) := rfl

instance : LawfulMonad M where
  map_const := rfl
  id_map x := by funext h; show (x h).bind _ = _; cases x h <;> rfl
  seqLeft_eq x y := by
    funext h
    show (((x h).bind _ : Option _)) = _
    simp only [Seq.seq, Functor.map, Bind.bind, Pure.pure]
    cases x h <;> rfl
  seqRight_eq x y := by
    funext h
    simp only [SeqRight.seqRight, Seq.seq, Functor.map, Bind.bind, Pure.pure]
    cases x h with
    | none => rfl
    | some r => show (y r.2) = Option.bind (y r.2) _; cases y r.2 <;> rfl
  pure_seq f x := rfl
  bind_pure_comp f x := rfl
  bind_map f x := rfl
  pure_bind x f := rfl
  bind_assoc x f g := by funext h; simp only [M.bind_apply]; cases x h <;> rfl

theorem step {α β : Type} {m : M α} {f : α → M β} {h h' : Heap} {a : α} (e : m h = some (a, h')) : (m >>= f) h = f a h' := by
  rw [M.bind_apply, e]; rfl

/-- The block at `p` contains `x`. -/
def Has {α : Type} (h : Heap) (p : Nat) (x : α) : Prop := h.cells p = some ⟨α, x⟩

theorem Has.live {α : Type} {h : Heap} {p : Nat} {x : α} (e : Has h p x) : h.cells p ≠ none := by rw [e]; simp

theorem load_eq {α : Type} {h : Heap} {p : Nat} {x : α} (e : Has h p x) : load α p h = some (x, h) := by
  unfold load
  unfold Has at e
  rw [e]
  simp

theorem store_eq {α : Type} {h : Heap} {p : Nat} (x : α) (hp : h.cells p ≠ none) : store p x h = some ((), h.set p ⟨α, x⟩ hp) := by
  unfold store; rw [dif_pos hp]

theorem free_eq {h : Heap} {p : Nat} (hp : h.cells p ≠ none) : free p h = some ((), h.minus {p}) := by
  unfold free; rw [if_pos hp]

theorem minus_empty (h : Heap) : h.minus ∅ = h := Heap.ext' (fun p => by simp [Heap.minus]) rfl

theorem minus_minus (h : Heap) (s t : Finset Nat) : (h.minus s).minus t = h.minus (s ∪ t) :=
  Heap.ext' (fun p => by simp only [Heap.minus, Finset.mem_union]; by_cases a : p ∈ s <;> by_cases b : p ∈ t <;> simp [a, b]) rfl

theorem set_minus (h : Heap) (p : Nat) (x : (α : Type) × α) (hp : h.cells p ≠ none) (s : Finset Nat) (hs : p ∈ s) : (h.set p x hp).minus s = h.minus s :=
  Heap.ext' (fun q => by
    simp only [Heap.minus, Heap.set]
    by_cases a : q ∈ s
    · rw [if_pos a, if_pos a]
    · have : q ≠ p := fun e => a (e ▸ hs)
      rw [if_neg a, if_neg a, if_neg this]) rfl

theorem set_has {α : Type} (h : Heap) (p : Nat) (x : α) (hp : h.cells p ≠ none) : Has (h.set p ⟨α, x⟩ hp) p x := by
  show (if p = p then _ else _) = _; rw [if_pos rfl]

theorem set_other (h : Heap) (p : Nat) (x : (α : Type) × α) (hp : h.cells p ≠ none) {q : Nat} (e : q ≠ p) : (h.set p x hp).cells q = h.cells q := by
  show (if q = p then _ else _) = _; rw [if_neg e]

theorem minus_other (h : Heap) (s : Finset Nat) {q : Nat} (e : q ∉ s) : (h.minus s).cells q = h.cells q := by
  show (if q ∈ s then _ else _) = _; rw [if_neg e]

theorem minus_in (h : Heap) (s : Finset Nat) {q : Nat} (e : q ∈ s) : (h.minus s).cells q = none := by
  show (if q ∈ s then _ else _) = _; rw [if_pos e]

/-- What a computation that only allocates does: the old blocks are as they were, and exactly the blocks `s` are new. -/
structure New (h h' : Heap) (s : Finset Nat) : Prop where
  next : h.next ≤ h'.next
  old : ∀ p < h.next, h'.cells p = h.cells p
  fresh : ∀ p, h.next ≤ p → (h'.cells p ≠ none ↔ p ∈ s)
  above : ∀ p ∈ s, h.next ≤ p

theorem New.refl (h : Heap) : New h h ∅ :=
  ⟨le_refl _, fun _ _ => rfl, fun p hp => ⟨fun e => absurd (h.ok p e) (by omega), fun e => absurd e (by simp)⟩, fun p hp => absurd hp (by simp)⟩

theorem New.below {h h' : Heap} {s : Finset Nat} (n : New h h' s) : ∀ p ∈ s, p < h'.next :=
  fun p hp => h'.ok p ((n.fresh p (n.above p hp)).2 hp)

theorem New.trans {h h' k : Heap} {s t : Finset Nat} (a : New h h' s) (b : New h' k t) : New h k (s ∪ t) where
  next := le_trans a.next b.next
  old p hp := (b.old p (lt_of_lt_of_le hp a.next)).trans (a.old p hp)
  fresh p hp := by
    rw [Finset.mem_union]
    by_cases e : p < h'.next
    · rw [b.old p e, a.fresh p hp]
      exact ⟨Or.inl, fun o => o.elim id fun m => absurd (b.above p m) (by omega)⟩
    · rw [b.fresh p (by omega)]
      exact ⟨Or.inr, fun o => o.elim (fun m => absurd (a.below p m) (by omega)) id⟩
  above p hp := by
    rcases Finset.mem_union.1 hp with m | m
    · exact a.above p m
    · exact le_trans a.next (b.above p m)

theorem New.disjoint {h h' k : Heap} {s t : Finset Nat} (a : New h h' s) (b : New h' k t) : Disjoint s t :=
  Finset.disjoint_left.2 fun p hs ht => absurd (b.above p ht) (by have := a.below p hs; omega)

/-- The heap after `alloc`. -/
def plus {α : Type} (h : Heap) (x : α) : Heap := ⟨fun p => if p = h.next then some ⟨α, x⟩ else h.cells p, h.next + 1, fun p hp => by
    by_cases e : p = h.next
    · omega
    · rw [if_neg e] at hp; exact Nat.lt_succ_of_lt (h.ok p hp)⟩

theorem alloc_eq {α : Type} (x : α) (h : Heap) : alloc x h = some (h.next, plus h x) := rfl

theorem plus_has {α : Type} (h : Heap) (x : α) : Has (plus h x) h.next x := by
  show (if h.next = h.next then _ else _) = _; rw [if_pos rfl]

theorem plus_new {α : Type} (h : Heap) (x : α) : New h (plus h x) {h.next} where
  next := Nat.le_succ _
  old p hp := by show (if p = h.next then _ else _) = _; rw [if_neg (by omega)]
  fresh p hp := by
    show (if p = h.next then _ else _) ≠ none ↔ _
    by_cases e : p = h.next
    · simp [e]
    · rw [if_neg e]
      exact ⟨fun q => absurd (h.ok p q) (by omega), fun q => absurd (Finset.mem_singleton.1 q) e⟩
  above p hp := by rw [Finset.mem_singleton.1 hp]

/-- Writing to a new block. -/
theorem New.set {h h' : Heap} {s : Finset Nat} (n : New h h' s) (p : Nat) (x : (α : Type) × α) (hp : h'.cells p ≠ none) (hs : p ∈ s) :
    New h (h'.set p x hp) s where
  next := n.next
  old q hq := by rw [set_other _ _ _ _ (by intro e; have := n.above p hs; omega)]; exact n.old q hq
  fresh q hq := by
    by_cases e : q = p
    · subst e
      exact ⟨fun _ => hs, fun _ => by show (if q = q then _ else _) ≠ none; rw [if_pos rfl]; simp⟩
    · rw [set_other _ _ _ _ e]; exact n.fresh q hq
  above := n.above

/-! ### Ownership -/

/-- The shape of "in the heap `h`, the object `a` has the value `v` and owns exactly the blocks `s`". -/
abbrev Rel (α V : Type) := Heap → α → V → Finset Nat → Prop

/-- The value depends on the owned blocks only, and these are allocated. -/
structure Local {α V : Type} (R : Rel α V) : Prop where
  frame : ∀ {h a v s} {h' : Heap}, R h a v s → (∀ p ∈ s, h'.cells p = h.cells p) → R h' a v s
  live : ∀ {h a v s}, R h a v s → ∀ p ∈ s, h.cells p ≠ none

/-- Destroying frees exactly the owned blocks. -/
def Dest {α V β : Type} (R : Rel α V) (f : α → M β) : Prop := ∀ h a v s, R h a v s → ∃ d, f a h = some (d, h.minus s)

/-- Duplicating allocates a new object with the same value, and changes nothing else. -/
def Dup {α V : Type} (R : Rel α V) (f : α → M α) : Prop :=
  ∀ h a v s, R h a v s → ∃ d h' t, f a h = some (d, h') ∧ New h h' t ∧ R h' d v t

theorem Local.below {α V : Type} {R : Rel α V} (L : Local R) {h a v s} (r : R h a v s) : ∀ p ∈ s, p < h.next := fun p hp => h.ok p (L.live r p hp)

theorem Local.new {α V : Type} {R : Rel α V} (L : Local R) {h h' a v s t} (r : R h a v s) (n : New h h' t) : R h' a v s :=
  L.frame r fun p hp => n.old p (L.below r p hp)

theorem Local.minus {α V : Type} {R : Rel α V} (L : Local R) {h a v s t} (r : R h a v s) (d : Disjoint s t) : R (h.minus t) a v s :=
  L.frame r fun p hp => minus_other _ _ (Finset.disjoint_left.1 d hp)

/-- Two objects side by side. -/
def RPair {α V β W : Type} (A : Rel α V) (B : Rel β W) : Rel (α × β) (V × W) := fun h a v s =>
  ∃ s1 s2, A h a.1 v.1 s1 ∧ B h a.2 v.2 s2 ∧ Disjoint s1 s2 ∧ s = s1 ∪ s2

section pair
variable {α V β W γ δ : Type} {A : Rel α V} {B : Rel β W}

theorem Local.pair (a : Local A) (b : Local B) : Local (RPair A B) where
  frame := by
    rintro h x v s h' ⟨s1, s2, ra, rb, d, rfl⟩ e
    exact ⟨s1, s2, a.frame ra fun p hp => e p (Finset.mem_union_left _ hp), b.frame rb fun p hp => e p (Finset.mem_union_right _ hp), d, rfl⟩
  live := by
    rintro h x v s ⟨s1, s2, ra, rb, d, rfl⟩ p hp
    rcases Finset.mem_union.1 hp with m | m
    · exact a.live ra p m
    · exact b.live rb p m

theorem Dest.pair {f : α → M γ} {g : β → M δ} (lb : Local B) (a : Dest A f) (b : Dest B g) :
    Dest (RPair A B) fun x => f x.1 >>= fun _ => g x.2 := by
  rintro h x v s ⟨s1, s2, ra, rb, d, rfl⟩
  obtain ⟨c, e⟩ := a _ _ _ _ ra
  obtain ⟨c', e'⟩ := b _ _ _ _ (lb.minus rb d.symm)
  exact ⟨c', by show (f x.1 >>= fun _ => g x.2) h = _; rw [step e, e', minus_minus]⟩

theorem Dup.pair {f : α → M α} {g : β → M β} (la : Local A) (lb : Local B) (a : Dup A f) (b : Dup B g) :
    Dup (RPair A B) fun x => f x.1 >>= fun y => g x.2 >>= fun z => pure (y, z) := by
  rintro h x v s ⟨s1, s2, ra, rb, d, rfl⟩
  obtain ⟨c, k, t, e, n, r⟩ := a _ _ _ _ ra
  obtain ⟨c', k', t', e', n', r'⟩ := b _ _ _ _ (lb.new rb n)
  exact ⟨(c, c'), k', t ∪ t', by show (f x.1 >>= fun y => g x.2 >>= fun z => pure (y, z)) h = _; rw [step e, step e']; rfl, n.trans n', t, t', la.new r n', r', n.disjoint n', rfl⟩
end pair

/-- An object with parts that own memory, and plain values. -/
def RVia {α β V ρ : Type} (parts : α → β) (rest : α → ρ) (R : Rel β V) : Rel α (V × ρ) := fun h a v s => R h (parts a) v.1 s ∧ rest a = v.2

section via
variable {α β V ρ γ δ : Type} {parts : α → β} {rest : α → ρ} {R : Rel β V}

theorem Local.via (l : Local R) : Local (RVia parts rest R) where
  frame r e := ⟨l.frame r.1 e, r.2⟩
  live r := l.live r.1

theorem Dest.via {f : β → M γ} {g : α → M δ} (d : Dest R f) (c : α → δ) (e : ∀ a, g a = f (parts a) >>= fun _ => pure (c a)) :
    Dest (RVia parts rest R) g := by
  intro h a v s r
  obtain ⟨x, q⟩ := d _ _ _ _ r.1
  exact ⟨c a, by rw [e, step q]; rfl⟩

theorem Dup.via {f : β → M β} {g : α → M α} (d : Dup R f) (mk : α → β → α) (hp : ∀ a x, parts (mk a x) = x) (hr : ∀ a x, rest (mk a x) = rest a)
    (e : ∀ a, g a = f (parts a) >>= fun x => pure (mk a x)) : Dup (RVia parts rest R) g := by
  intro h a v s r
  obtain ⟨x, k, t, q, n, r'⟩ := d _ _ _ _ r.1
  exact ⟨mk a x, k, t, by rw [e, step q]; rfl, n, by rw [hp]; exact r', by rw [hr]; exact r.2⟩
end via

/-- The laws of the three functions of a type: an initialised object owns nothing; destroying frees exactly what the object owns; copying frees what the destination
owns and makes it a new object with the value of the source. -/
structure Lawful {α V : Type} (C : Cls α) (R : Rel α V) (v0 : V) : Prop where
  loc : Local R
  init : ∀ h, R h C.init v0 ∅
  destroy : ∀ h a v s, R h a v s → ∃ d, C.destroy a h = some (d, h.minus s) ∧ R (h.minus s) d v0 ∅
  copy : ∀ h d w t a v s, R h d w t → R h a v s → Disjoint s t → ∃ d' h' s', C.copy d a h = some (d', h') ∧ New (h.minus t) h' s' ∧ R h' d' v s'

theorem Lawful.dest {α V : Type} {C : Cls α} {R : Rel α V} {v0 : V} (L : Lawful C R v0) : Dest R C.destroy := fun h a v s r =>
  (L.destroy h a v s r).imp fun _ e => e.1

theorem Lawful.dup {α V : Type} {C : Cls α} {R : Rel α V} {v0 : V} (L : Lawful C R v0) : Dup R (C.copy C.init) := fun h a v s r => by
  obtain ⟨d, k, t, e, n, r'⟩ := L.copy h C.init v0 ∅ a v s (L.init h) r (Finset.disjoint_empty_right _)
  rw [minus_empty] at n
  exact ⟨d, k, t, e, n, r'⟩

/-- The usual case: copying is destroying the destination and duplicating the source. -/
theorem Lawful.mk' {α V : Type} {C : Cls α} {R : Rel α V} {v0 : V} (loc : Local R) (init : ∀ h, R h C.init v0 ∅) (dest : Dest R C.destroy)
    (res : ∀ a h d h', C.destroy a h = some (d, h') → d = C.init) (dup : Dup R (C.copy C.init))
    (re : ∀ d a, C.copy d a = C.destroy d >>= fun _ => C.copy C.init a) : Lawful C R v0 where
  loc := loc
  init := init
  destroy h a v s r := by
    obtain ⟨d, e⟩ := dest h a v s r
    exact ⟨d, e, by rw [res a h d _ e]; exact init _⟩
  copy h d w t a v s rd ra dj := by
    obtain ⟨x, e⟩ := dest h d w t rd
    rw [re, step e]
    exact dup _ a v s (loc.minus ra dj)

theorem result_pure {α β : Type} {m : M β} {c : α} {h : Heap} {d : α} {h' : Heap} (e : (m >>= fun _ => pure c) h = some (d, h')) : d = c := by
  rw [M.bind_apply] at e
  cases hm : m h with
  | none => rw [hm] at e; cases e
  | some r => rw [hm] at e; cases e; rfl

/-! ### Strings, pointers, arrays -/

/-- A string: `NULL`, or a block with the characters. -/
def RString : Rel Ptr (Option String) := fun h p v s =>
  (p = none ∧ v = none ∧ s = ∅) ∨ ∃ q t, p = some q ∧ v = some t ∧ s = {q} ∧ Has h q t

theorem string_local : Local RString where
  frame := by
    rintro h p v s h' (r | ⟨q, t, rfl, rfl, rfl, e⟩) f
    · exact Or.inl r
    · exact Or.inr ⟨q, t, rfl, rfl, rfl, (f q (by simp)).trans e⟩
  live := by
    rintro h p v s (⟨rfl, rfl, rfl⟩ | ⟨q, t, rfl, rfl, rfl, e⟩) x hx
    · simp at hx
    · rw [Finset.mem_singleton.1 hx]; exact e.live

theorem string_dest : Dest RString stringDestroy := by
  rintro h p v s (⟨rfl, rfl, rfl⟩ | ⟨q, t, rfl, rfl, rfl, e⟩)
  · exact ⟨none, by rw [minus_empty]; rfl⟩
  · exact ⟨none, by simp only [stringDestroy]; rw [step (free_eq e.live)]; rfl⟩

theorem string_dup : Dup RString (stringCopy none) := by
  rintro h p v s (⟨rfl, rfl, rfl⟩ | ⟨q, t, rfl, rfl, rfl, e⟩)
  · exact ⟨none, h, ∅, rfl, New.refl h, Or.inl ⟨rfl, rfl, rfl⟩⟩
  · refine ⟨some h.next, plus h t, {h.next}, ?_, plus_new h t, Or.inr ⟨_, t, rfl, rfl, rfl, plus_has h t⟩⟩
    simp only [stringCopy, stringDestroy, pure_bind]
    rw [step (load_eq e)]
    rfl

theorem stringDestroy_res {a : Ptr} {h d h'} (e : stringDestroy a h = some (d, h')) : d = none := by
  cases a with
  | none => simp only [stringDestroy, M.pure_apply] at e; cases e; rfl
  | some p => simp only [stringDestroy] at e; exact result_pure e

theorem string_lawful : Lawful string RString none :=
  Lawful.mk' string_local (fun h => Or.inl ⟨rfl, rfl, rfl⟩) string_dest (fun a h d h' e => stringDestroy_res e) string_dup fun d a => by
    simp only [string, stringCopy, stringDestroy, pure_bind]

/-- A pointer to an object of the heap that its owner frees: `NULL`, or the block of the object. -/
def ROwn {α V : Type} (R : Rel α V) : Rel Ptr (Option V) := fun h p v s =>
  (p = none ∧ v = none ∧ s = ∅) ∨ ∃ q a w t, p = some q ∧ v = some w ∧ Has h q a ∧ R h a w t ∧ q ∉ t ∧ s = insert q t

section own
variable {α V : Type} {C : Cls α} {R : Rel α V} {v0 : V}

theorem Local.own (l : Local R) : Local (ROwn R) where
  frame := by
    rintro h p v s h' (r | ⟨q, a, w, t, rfl, rfl, e, r, hq, rfl⟩) f
    · exact Or.inl r
    · exact Or.inr ⟨q, a, w, t, rfl, rfl, (f q (by simp)).trans e, l.frame r fun p hp => f p (Finset.mem_insert_of_mem hp), hq, rfl⟩
  live := by
    rintro h p v s (⟨rfl, rfl, rfl⟩ | ⟨q, a, w, t, rfl, rfl, e, r, hq, rfl⟩) x hx
    · simp at hx
    · rcases Finset.mem_insert.1 hx with rfl | m
      · exact e.live
      · exact l.live r x m

/-- Destroying an object inside a block, writing the block, freeing it. -/
theorem destroy_block {β γ : Type} {f : α → M γ} {h : Heap} {a : α} {t : Finset Nat} {q : Nat} {d : γ} {x : β} {w : γ → β}
    (e : f a h = some (d, h.minus t)) (hq : h.cells q ≠ none) (hn : q ∉ t) :
    (f a >>= fun d => store q (w d) >>= fun _ => free q) h = some ((), h.minus (insert q t)) := by
  rw [step e]
  have h1 : (h.minus t).cells q ≠ none := by rw [minus_other _ _ hn]; exact hq
  rw [step (store_eq _ h1)]
  rw [free_eq (set_has _ _ _ _).live, set_minus _ _ _ _ _ (by simp), minus_minus]
  congr 3
  ext p
  simp [or_comm]

theorem Dest.own (d : Dest R C.destroy) : Dest (ROwn R) (freeObj C) := by
  rintro h p v s (⟨rfl, rfl, rfl⟩ | ⟨q, a, w, t, rfl, rfl, e, r, hq, rfl⟩)
  · exact ⟨(), by rw [minus_empty]; rfl⟩
  · obtain ⟨x, ex⟩ := d _ _ _ _ r
    refine ⟨(), ?_⟩
    simp only [freeObj]
    rw [step (load_eq e)]
    exact destroy_block (x := a) (w := fun d => d) ex e.live hq

theorem Dup.own (l : Local R) (d : Dup R (C.copy C.init)) : Dup (ROwn R) (clone C) := by
  rintro h p v s (⟨rfl, rfl, rfl⟩ | ⟨q, a, w, t, rfl, rfl, e, r, hq, rfl⟩)
  · exact ⟨none, h, ∅, rfl, New.refl h, Or.inl ⟨rfl, rfl, rfl⟩⟩
  · have n := plus_new h C.init
    have lt : q < h.next := h.ok q e.live
    obtain ⟨x, k, u, ex, n', r'⟩ := d _ _ _ _ (l.new r n)
    have e1 : Has (plus h C.init) q a := (n.old q lt).trans e
    have hk : k.cells h.next ≠ none := by
      rw [n'.old _ (Nat.lt_succ_self _)]; exact (plus_has h C.init).live
    have nu : h.next ∉ u := fun m => absurd (n'.above _ m) (Nat.not_succ_le_self _)
    refine ⟨some h.next, k.set h.next ⟨α, x⟩ hk, insert h.next u, ?_, ?_, Or.inr ⟨h.next, x, w, u, rfl, rfl, set_has _ _ _ _, ?_, nu, rfl⟩⟩
    · simp only [clone]
      rw [step (alloc_eq _ _), step (load_eq e1), step ex, step (store_eq _ hk)]
      rfl
    · exact (n.trans n').set _ _ hk (by simp)
    · exact l.frame r' fun p hp => set_other _ _ _ _ fun e => nu (e ▸ hp)
end own

/-- An array with its length, or `NULL`. -/
def RArr (β : Type) : Rel (Nat × Ptr) (Nat × Option (List β)) := fun h a v s => a.1 = v.1 ∧
  ((a.2 = none ∧ v.2 = none ∧ s = ∅) ∨ ∃ q l, a.2 = some q ∧ v.2 = some l ∧ s = {q} ∧ Has h q l ∧ l.length = a.1)

section arr
variable {β : Type}
theorem arr_local : Local (RArr β) where
  frame := by
    rintro h p v s h' ⟨e, r | ⟨q, t, x, y, rfl, z, l⟩⟩ f
    · exact ⟨e, Or.inl r⟩
    · exact ⟨e, Or.inr ⟨q, t, x, y, rfl, (f q (by simp)).trans z, l⟩⟩
  live := by
    rintro h p v s ⟨e, ⟨_, _, rfl⟩ | ⟨q, t, x, y, rfl, z, l⟩⟩ x hx
    · simp at hx
    · rw [Finset.mem_singleton.1 hx]; exact z.live

theorem arr_dest : Dest (RArr β) fun a => arrayFree a.2 := by
  rintro h p v s ⟨e, ⟨x, _, rfl⟩ | ⟨q, t, x, y, rfl, z, l⟩⟩
  · exact ⟨(), by show arrayFree p.2 h = _; rw [minus_empty, x]; rfl⟩
  · exact ⟨(), by show arrayFree p.2 h = _; rw [x]; exact free_eq z.live⟩

theorem arr_dup : Dup (RArr β) fun a => arrayDup β a.1 a.2 >>= fun p => pure (a.1, p) := by
  rintro h ⟨n, p⟩ v s ⟨e, ⟨x, x', rfl⟩ | ⟨q, t, x, y, rfl, z, l⟩⟩
  · subst x; exact ⟨(n, none), h, ∅, rfl, New.refl h, e, Or.inl ⟨rfl, x', rfl⟩⟩
  · subst x
    have hl : t.length = n := l
    have ht : t.take n = t := List.take_of_length_le (by omega)
    refine ⟨(n, some h.next), plus h t, {h.next}, ?_, plus_new h t, e, Or.inr ⟨_, t, rfl, y, rfl, plus_has h t, l⟩⟩
    simp only [arrayDup, bind_assoc]
    rw [step (load_eq z), if_pos (by omega), ht]
    rfl
end arr

/-- A block of any kind, or `NULL`. -/
def RAny : Rel Ptr Bool := fun h p v s => (p = none ∧ v = false ∧ s = ∅) ∨ ∃ q, p = some q ∧ v = true ∧ s = {q} ∧ h.cells q ≠ none

theorem any_local : Local RAny where
  frame := by
    rintro h p v s h' (r | ⟨q, x, y, rfl, z⟩) f
    · exact Or.inl r
    · exact Or.inr ⟨q, x, y, rfl, by rw [f q (by simp)]; exact z⟩
  live := by
    rintro h p v s (⟨_, _, rfl⟩ | ⟨q, x, y, rfl, z⟩) x hx
    · simp at hx
    · rw [Finset.mem_singleton.1 hx]; exact z

theorem any_dest : Dest RAny arrayFree := by
  rintro h p v s (⟨rfl, _, rfl⟩ | ⟨q, rfl, y, rfl, z⟩)
  · exact ⟨(), by rw [minus_empty]; rfl⟩
  · exact ⟨(), free_eq z⟩

end Verif.Own
