import Verif.Props.Program

/-! # C68, C69: which layer of the chip an output point of the stack file shows -/

set_option linter.unusedSectionVars false
set_option linter.unusedSimpArgs false
set_option linter.unusedVariables false

namespace Verif.Prog
open Verif.Gram Verif.Dim Verif.TG Verif.SM Verif.Stk Verif.FE Verif.Emu Verif.Flp

/-! ### Specification -/

/-- The name of an element of the stack. -/
def nameOf : ElD → String
  | .layer n _ _ => n
  | .channel n => n
  | .die n _ _ _ => n

/-- How many layers of cells an element of the stack has: a 4RM channel is one layer, the other channels are four (bottom wall, walls and
coolant side by side, top wall). -/
def layersIn (s : StackD) : ElD → Nat
  | .layer _ _ _ => 1
  | .channel _ => match s.chan with
    | some (.rm4 _ _ _ _ _ _ _ _ _ _) => 1
    | _ => 4
  | .die _ ref _ _ => match s.dies.find? (fun x => x.id == ref) with
    | some x => x.below.length + 1 + x.above.length
    | none => 0

/-- The layer of an element that its outputs show, counted from its bottom: the source layer of a die, the coolant of a channel. -/
def shownIn (s : StackD) : ElD → Nat
  | .layer _ _ _ => 0
  | .channel _ => match s.chan with
    | some (.rm4 _ _ _ _ _ _ _ _ _ _) => 0
    | _ => 2
  | .die _ ref _ _ => match s.dies.find? (fun x => x.id == ref) with
    | some x => x.below.length
    | none => 0

/-- Layer `l` of the chip, counted from the bottom, is the one shown for the element named `n`. The stack file lists elements from the top. -/
def Shown (s : StackD) (n : String) (l : Nat) : Prop :=
  ∃ above x below, s.elems = above ++ x :: below ∧ nameOf x = n ∧ l = (below.map (layersIn s)).sum + shownIn s x

/-- What an output point of the stack file shows on a uniform grid. -/
def PointShows (s : StackD) (D : Desc Flps) (x : PointD) (p : Out.Point ℚ) : Prop :=
  match x with
  | .tcell el x y file w => At w p.instant ∧ p.file = file ∧ ∃ l, Shown s el l ∧
      p.kind = .tcell l (alignTcell D.parsed.dims x y).row (alignTcell D.parsed.dims x y).col
  | .tflp el file q w => At w p.instant ∧ Quant q p.quantity ∧ p.file = file ∧ ∃ l, Shown s el l ∧
      ∃ e ∈ D.parsed.elems, e.id = el ∧ ∃ b, e.body = .die b ∧ p.kind = .tflp l b.flp
  | .tflpel el sub file q w => At w p.instant ∧ Quant q p.quantity ∧ p.file = file ∧ ∃ l, Shown s el l ∧
      ∃ e ∈ D.parsed.elems, e.id = el ∧ ∃ b, e.body = .die b ∧ ∃ f, b.flp.find? (fun f => f.name == sub) = some f ∧ p.kind = .tflpel l f
  | .tmap el file w => At w p.instant ∧ p.file = file ∧ ∃ l, Shown s el l ∧ p.kind = .tmap l
  | .t3d file w => At w p.instant ∧ p.file = file ∧ p.kind = .t3d
  | .pmap el file w => At w p.instant ∧ p.file = file ∧ ∃ l, Shown s el l ∧ p.kind = .pmap l
  | .tcoolant el file q w => At w p.instant ∧ Quant q p.quantity ∧ p.file = file ∧ ∃ l, Shown s el l ∧ ∃ c, D.chan = some c ∧ p.kind = .tcoolant l c

/-! ### Proofs -/

section
variable {φ : Type} {R : Reader φ} {eff : Bool → ℚ → ℚ} {files : Files} {s : StackD} {D : Desc φ}

/-- What is known of each element. -/
def Sized1 (s : StackD) (c : Option (Channel ℚ)) (x : ElD) (e : SElem ℚ φ) : Prop :=
  nameOf x = e.id ∧ nLayersOf e = layersIn s x ∧ (∀ n, sourceLayerOffset { e with offset := n } = n + shownIn s x) ∧
    ∀ ch, e.body = .channel ch → c = some ch

theorem sized_one (M : Means R eff files s D) {d : Dims ℚ} (hc : Both (ChanIs eff s.mats d) s.chan D.chan) {x : ElD} {r : Raw ℚ φ} {e : SElem ℚ φ}
    (h1 : ElemIs R files s d x r) (h2 : resolve D.chan r = some e) : Sized1 s D.chan x e := by
  cases x with
  | layer id ref o =>
    obtain ⟨l, -, rfl⟩ := h1
    cases h2
    exact ⟨rfl, rfl, fun _ => rfl, fun ch h => by cases h⟩
  | channel id =>
    have h1 : r = ⟨id, .channel⟩ := h1
    subst h1
    obtain ⟨ch, hch, he⟩ := Option.map_eq_some_iff.mp (show D.chan.map (fun ch => (⟨id, .channel ch, 0⟩ : SElem ℚ φ)) = some e from h2)
    subst he
    rw [hch] at hc
    cases hs : s.chan with
    | none => rw [hs] at hc; exact absurd hc (by simp [Both])
    | some x =>
      rw [hs] at hc
      have hc : ChanIs eff s.mats d x ch := hc
      have hm : (∃ a b c d e f g h i j, x = .rm4 a b c d e f g h i j) ∧ ch.model = .mc4rm ∨ (∀ a b c d e f g h i j, x ≠ .rm4 a b c d e f g h i j) ∧ ch.model ≠ .mc4rm := by
        cases x with
        | rm4 a b c d e f g h i j => exact .inl ⟨⟨_, _, _, _, _, _, _, _, _, _, rfl⟩, hc.2.2.1⟩
        | rm2 => exact .inr ⟨by intros; simp, by rw [hc.2.2.1]; decide⟩
        | pin h di p st m u v i => exact .inr ⟨by intros; simp, by rw [hc.2.2.1]; split <;> decide⟩
      refine ⟨rfl, ?_, ?_, fun ch' h => by cases h; exact hch⟩
      · simp only [nLayersOf, chLayers, layersIn, hs]
        rcases hm with ⟨⟨a, b, c, d, e, f, g, h, i, j, rfl⟩, hm⟩ | ⟨hx, hm⟩
        · rw [if_pos hm]
        · rw [if_neg hm]
          cases x with
          | rm4 a b c d e f g h i j => exact absurd rfl (hx a b c d e f g h i j)
          | rm2 => rfl
          | pin => rfl
      · intro n
        simp only [sourceLayerOffset, chSrcOff, shownIn, hs]
        rcases hm with ⟨⟨a, b, c, d, e, f, g, h, i, j, rfl⟩, hm⟩ | ⟨hx, hm⟩
        · rw [if_pos hm]
        · rw [if_neg hm]
          cases x with
          | rm4 a b c d e f g h i j => exact absurd rfl (hx a b c d e f g h i j)
          | rm2 => rfl
          | pin => rfl
  | die id ref p o =>
    obtain ⟨q, f, g, ⟨y, hy, hy', hd⟩, -, -, rfl⟩ := h1
    have hfind := find_named M.dieNames hy
    rw [hy'] at hfind
    cases h2
    have hs : ∀ (l : List (Layer ℚ)) n, l.foldl (fun n _ => n + 1) n = n + l.length := by
      intro l; induction l with
      | nil => simp
      | cons a l ih => intro n; simp only [List.foldl_cons, ih, List.length_cons]; omega
    have l1 := hd.1.length_eq
    have l2 := hd.2.2.length_eq
    refine ⟨rfl, ?_, ?_, fun ch h => by cases h⟩
    · simp only [nLayersOf, layersIn, hfind, parseDie, List.length_append, List.length_cons, List.length_nil]
      omega
    · intro n
      simp only [sourceLayerOffset, shownIn, hfind, parseDie, hs]
      omega

theorem shown_below (c : Option (Channel ℚ)) : ∀ {xs : List ElD} {es : List (SElem ℚ φ)}, List.Forall₂ (Sized1 s c) xs es → ∀ n e, e ∈ assignOffsets n es →
    (∃ below x above, xs = below ++ x :: above ∧ nameOf x = e.id ∧ sourceLayerOffset e = n + (below.map (layersIn s)).sum + shownIn s x) ∧
      ∀ ch, e.body = .channel ch → c = some ch := by
  intro xs es h
  induction h with
  | nil => intro n e he; simp [assignOffsets] at he
  | @cons x e0 xs es h1 _ ih =>
    intro n e he
    rw [assignOffsets, List.mem_cons] at he
    rcases he with rfl | he
    · exact ⟨⟨[], x, xs, rfl, h1.1, by rw [h1.2.2.1]; simp⟩, h1.2.2.2⟩
    · obtain ⟨⟨below, y, above, rfl, e1, e2⟩, e3⟩ := ih _ e he
      refine ⟨⟨x :: below, y, above, rfl, e1, ?_⟩, e3⟩
      rw [e2, h1.2.1, List.map_cons, List.sum_cons]
      omega

theorem forall₂_trans {α β γ : Type} {p : α → β → Prop} {q : β → γ → Prop} {r : α → γ → Prop} (h : ∀ a b c, p a b → q b c → r a c) :
    ∀ {as : List α} {bs : List β} {cs : List γ}, List.Forall₂ p as bs → List.Forall₂ q bs cs → List.Forall₂ r as cs
  | _, _, _, .nil, .nil => .nil
  | _, _, _, .cons h1 t1, .cons h2 t2 => .cons (h _ _ _ h1 h2) (forall₂_trans h t1 t2)

/-- The layer that an element of the stack shows. -/
theorem shown_layer (M : Means R eff files s D) {e : SElem ℚ φ} (he : e ∈ D.parsed.elems) :
    Shown s e.id (sourceLayerOffset e) ∧ ∀ ch, e.body = .channel ch → D.chan = some ch := by
  obtain ⟨walls, d, spr, -, -, -, hc, -, -, -, raws, h1, h2⟩ := M.stack
  obtain ⟨es, n, g1, -, -, -, -, -, g2, -⟩ := parseStack_spec h2
  rw [g2] at he
  have hf : List.Forall₂ (Sized1 s D.chan) s.elems es := forall₂_trans (p := ElemIs R files s d) (q := fun r e => resolve D.chan r = some e) (r := Sized1 s D.chan) (fun x r e a b => sized_one M hc a b) h1 g1
  obtain ⟨⟨below, x, above, k1, k2, k3⟩, k4⟩ := shown_below D.chan (forall₂_reverse hf) 0 e he
  refine ⟨⟨above.reverse, x, below.reverse, ?_, k2, ?_⟩, k4⟩
  · have := congrArg List.reverse k1
    rw [List.reverse_reverse] at this
    rw [this]; simp
  · rw [k3, Nat.zero_add, List.map_reverse, List.sum_reverse]
end

theorem find_first {f : Flps} {sub : String} {i : Nat} (h : (f.map (·.name))[i]? = some sub) (hj : ∀ j < i, (f.map (·.name))[j]? ≠ some sub) :
    f.find? (fun x => x.name == sub) = f[i]? := by
  induction f generalizing i with
  | nil => simp at h
  | cons a f ih =>
    rw [List.find?_cons]
    cases i with
    | zero =>
      have : a.name = sub := by simpa using h
      rw [this]; simp
    | succ i =>
      have ha : a.name ≠ sub := fun hh => hj 0 (by omega) (by simp [hh])
      rw [show (a.name == sub) = false by simp [ha]]
      simp only [List.getElem?_cons_succ]
      exact ih (by simpa using h) fun j hji => by simpa using hj (j + 1) (by omega)

/-- **C68** The output points are those of the stack file, in its order, and each shows the layer of the element it names: the source layer of
a die, the layer with the coolant of a channel. -/
theorem C68_points {w : World π} {file : String} {s : StackD} {D : Desc Flps} {an : Analysis ℚ} {s0 s' : Sim ℚ π} {log : Out.Log ℚ}
    (h : Session w file s D an s0 log s') : List.Forall₂ (PointShows s D) s.points (pointsOf D) := by
  unfold pointsOf
  rw [List.forall₂_map_right_iff]
  refine List.Forall₂.imp ?_ h.means.points
  intro x p hp
  have sh : ∀ {e : SElem ℚ Flps} {el}, e ∈ D.parsed.elems → e.id = el → Shown s el (sourceLayerOffset e) := by
    rintro e el he rfl; exact (shown_layer h.means he).1
  unfold PointShows uniformPoint
  cases x with
  | tcell => obtain ⟨h1, h2, h3, e, he, hid, ht⟩ := hp; exact ⟨h1, h3, _, sh he hid, by rw [ht]; rfl⟩
  | tflp => obtain ⟨h1, h2, h3, e, he, hid, b, hb, ht⟩ := hp; exact ⟨h1, h2, h3, _, sh he hid, e, he, hid, b, hb, by rw [ht]; rfl⟩
  | tflpel el sub fl q w' =>
    obtain ⟨h1, h2, h3, e, he, hid, b, i, hb, hi, hj, ht⟩ := hp
    have hf := find_first (f := b.flp) hi hj
    obtain ⟨f, hf'⟩ : ∃ f, b.flp[i]? = some f := by
      have : ((b.flp.map (·.name))[i]?) = some sub := hi
      rw [List.getElem?_map] at this
      obtain ⟨f, hf, -⟩ := Option.map_eq_some_iff.mp this
      exact ⟨f, hf⟩
    refine ⟨h1, h2, h3, _, sh he hid, e, he, hid, b, hb, f, hf.trans hf', ?_⟩
    rw [ht]
    show (b.flp[i]?).elim _ _ = _
    rw [hf']; rfl
  | tmap => obtain ⟨h1, h2, h3, e, he, hid, ht⟩ := hp; exact ⟨h1, h3, _, sh he hid, by rw [ht]; rfl⟩
  | t3d => obtain ⟨h1, h2, h3, ht⟩ := hp; exact ⟨h1, h3, by rw [ht]; rfl⟩
  | pmap => obtain ⟨h1, h2, h3, e, he, hid, ht⟩ := hp; exact ⟨h1, h3, _, sh he hid, by rw [ht]; rfl⟩
  | tcoolant =>
    obtain ⟨h1, h2, h3, e, he, hid, c, hb, ht⟩ := hp
    exact ⟨h1, h2, h3, _, sh he hid, c, (shown_layer h.means he).2 c hb, by rw [ht]; rfl⟩

/-- In a stack with a layer, a die and another layer: the source layer of the die has its own other layer and the lower layer below. -/
def shownElems : List ElD := [.layer "A" "PCB" none, .die "D" "CORE" "x" none, .layer "B" "PCB" none]
def shownDies : List DieD := [⟨"CORE", [], .own 1 "SI", [.own 2 "SI"]⟩]
example (s : StackD) (h : s.elems = shownElems) (hd : s.dies = shownDies) : Shown s "D" 2 ∧ ¬ Shown s "D" 1 := by
  have e1 : layersIn s (.layer "B" "PCB" none) = 1 := rfl
  have e2 : shownIn s (.die "D" "CORE" "x" none) = 1 := by unfold shownIn; rw [hd]; rfl
  refine ⟨⟨[.layer "A" "PCB" none], .die "D" "CORE" "x" none, [.layer "B" "PCB" none], h, rfl, by rw [e2]; rfl⟩, ?_⟩
  rintro ⟨above, x, below, hx, hn, hl⟩
  rw [h] at hx
  rcases above with _ | ⟨a, above⟩
  · cases hx; exact absurd hn (by decide)
  · rcases above with _ | ⟨b, above⟩
    · cases hx
      rw [e2] at hl
      exact absurd hl (by simp [e1])
    · rcases above with _ | ⟨c, above⟩
      · cases hx; exact absurd hn (by decide)
      · have := congrArg List.length hx
        simp [shownElems] at this

end Verif.Prog
