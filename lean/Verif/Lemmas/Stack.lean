import Verif.Model.Stack
import Mathlib.Algebra.BigOperators.Group.List.Basic

set_option linter.unusedSectionVars false
set_option linter.unusedSimpArgs false
set_option linter.unnecessarySimpa false

namespace Verif.Stk
open Verif.Dim Verif.TG

variable {K φ : Type}

/-- Number of layers of a list of elements. -/
def total (es : List (SElem K φ)) : Nat := (es.map nLayersOf).sum

theorem countLayers_eq (n : Nat) (es : List (SElem K φ)) : countLayers n es = n + total es := by
  induction es generalizing n with
  | nil => simp [countLayers, total]
  | cons e es ih => simp only [countLayers, ih, total, List.map_cons, List.sum_cons]; omega

theorem length_writes {α : Type} (xs : List α) (i : Nat) (ys : List α) : (writes xs i ys).length = xs.length := by
  induction ys generalizing xs i with
  | nil => rfl
  | cons y ys ih => simp [writes, ih]

theorem writes_block {α : Type} (pre old post ys : List α) (h : old.length = ys.length) :
    writes (pre ++ old ++ post) pre.length ys = pre ++ ys ++ post := by
  induction ys generalizing pre old with
  | nil => cases old <;> simp_all [writes]
  | cons y ys ih =>
    cases old with
    | nil => simp at h
    | cons o old =>
      simp only [writes]
      have e : (pre ++ (o :: old) ++ post).set pre.length y = (pre ++ [y]) ++ old ++ post := by simp
      rw [e]
      have := ih (pre ++ [y]) old (by simpa using h)
      simp only [List.length_append, List.length_cons, List.length_nil] at this
      rw [this]; simp

theorem set_block {α : Type} (pre ys post : List α) (k : Nat) (v : α) (hk : k < ys.length) :
    (pre ++ ys ++ post).set (pre.length + k) v = pre ++ ys.set k v ++ post := by
  rw [List.append_assoc, List.set_append_right _ _ (by omega)]
  simp only [Nat.add_sub_cancel_left]
  rw [List.set_append_left _ _ hk, List.append_assoc]

/-- A fold of block writes over the elements with their offsets is the concatenation of the blocks. -/
theorem foldl_blocks {α : Type} (z : α) (w : List α → SElem K φ → List α) (blk : Body K φ → List α) (ok : SElem K φ → Prop)
    (hw : ∀ (pre post : List α) (e : SElem K φ), ok e → e.offset = pre.length →
      w (pre ++ List.replicate (nLayersOf e) z ++ post) e = pre ++ blk e.body ++ post)
    (hl : ∀ e : SElem K φ, ok e → (blk e.body).length = nLayersOf e)
    (hoff : ∀ (e : SElem K φ) n, ok e → ok { e with offset := n })
    (es : List (SElem K φ)) (hok : ∀ e ∈ es, ok e) (pre : List α) :
    (assignOffsets pre.length es).foldl w (pre ++ List.replicate (total es) z) = pre ++ es.flatMap fun e => blk e.body := by
  induction es generalizing pre with
  | nil => simp [assignOffsets, total]
  | cons e es ih =>
    simp only [assignOffsets, List.foldl_cons]
    have e1 : pre ++ List.replicate (total (e :: es)) z =
        pre ++ List.replicate (nLayersOf { e with offset := pre.length }) z ++ List.replicate (total es) z := by
      simp only [total, List.map_cons, List.sum_cons, List.append_assoc, List.replicate_append_replicate]
      rfl
    have o1 : ok { e with offset := pre.length } := hoff _ _ (hok e (by simp))
    rw [e1, hw pre _ _ o1 rfl]
    have hlen : pre.length + nLayersOf e = (pre ++ blk e.body).length := by
      rw [List.length_append, hl e (hok e (by simp))]
    have := ih (fun x hx => hok x (by simp [hx])) (pre ++ blk e.body)
    rw [← hlen] at this
    rw [this]
    simp

/-- A die whose source layer is one of its layers; a channel with a model. -/
def ElemOk (e : SElem K φ) : Prop :=
  match e.body with
  | .die d => d.srcOff < d.layers.length
  | .layer _ => True
  | .channel ch => ch.model ≠ .none

/-- Types of the layers of an element, bottom-up. -/
def blockTypes : Body K φ → List LType
  | .die d => (List.replicate d.layers.length LType.solid).set d.srcOff .source
  | .layer _ => [.solid]
  | .channel ch => chTypes ch.model

/-- Layers of an element, bottom-up. -/
def blockLayers : Body K φ → List (Layer K)
  | .die d => d.layers.reverse
  | .layer ly => [ly]
  | .channel ch => List.replicate (chLayers ch) (wallLayer ch)

/-- Floorplans of the layers of an element, bottom-up. -/
def blockFlp : Body K φ → List (Option φ)
  | .die d => (List.replicate d.layers.length none).set d.srcOff (some d.flp)
  | .layer _ => [none]
  | .channel ch => List.replicate (chLayers ch) none

theorem chTypes_length {m : ChModel} (h : m ≠ .none) : (chTypes m).length = if m = .mc4rm then 1 else 4 := by
  cases m <;> simp [chTypes] at *

theorem foldl_types (es : List (SElem K φ)) (h : ∀ e ∈ es, ElemOk e) :
    (assignOffsets 0 es).foldl writeTypes (List.replicate (total es) LType.none) = es.flatMap fun e => blockTypes e.body := by
  have := foldl_blocks LType.none writeTypes blockTypes ElemOk ?_ ?_ (fun e n h => h) es h []
  · simpa using this
  · intro pre post e he ho
    unfold writeTypes ElemOk at *
    cases hb : e.body with
    | die d =>
      simp only [hb] at he ⊢
      have hn : nLayersOf e = d.layers.length := by simp [nLayersOf, hb]
      rw [ho, writes_block _ _ _ _ (by simp [hn]), set_block _ _ _ _ _ (by simpa using he)]
      congr 3
      simp [blockTypes]
    | layer ly =>
      simp only [ho, nLayersOf, hb, blockTypes]
      have := set_block pre [LType.none] post 0 LType.solid (by simp)
      simpa using this
    | channel ch =>
      simp only [hb] at he ⊢
      have hn : nLayersOf e = chLayers ch := by simp [nLayersOf, hb]
      rw [ho, writes_block _ _ _ _ (by rw [hn, List.length_replicate, chTypes_length he]; rfl)]
      rfl
  · intro e he
    unfold ElemOk at he
    cases hb : e.body with
    | die d => simp [blockTypes, nLayersOf, hb]
    | layer ly => simp [blockTypes, nLayersOf, hb]
    | channel ch =>
      simp only [hb] at he
      simp only [blockTypes, nLayersOf, hb, chLayers]
      exact chTypes_length he

theorem foldl_layers (z : Layer K) (es : List (SElem K φ)) :
    (assignOffsets 0 es).foldl writeLayers (List.replicate (total es) z) = es.flatMap fun e => blockLayers e.body := by
  have := foldl_blocks z writeLayers blockLayers (fun _ => True) ?_ ?_ (fun e n h => h) es (fun _ _ => trivial) []
  · simpa using this
  · intro pre post e _ ho
    unfold writeLayers
    cases hb : e.body with
    | die d =>
      have hn : nLayersOf e = d.layers.length := by simp [nLayersOf, hb]
      simp only [ho]
      rw [writes_block _ _ _ _ (by simp [hn])]; rfl
    | layer ly =>
      simp only [ho, nLayersOf, hb, blockLayers]
      have := set_block pre [z] post 0 ly (by simp)
      simpa using this
    | channel ch =>
      have hn : nLayersOf e = chLayers ch := by simp [nLayersOf, hb]
      simp only [ho]
      rw [writes_block _ _ _ _ (by simp [hn])]; rfl
  · intro e _
    cases hb : e.body <;> simp [blockLayers, nLayersOf, hb]

theorem foldl_flp (es : List (SElem K φ)) (h : ∀ e ∈ es, ElemOk e) :
    (assignOffsets 0 es).foldl writeFlp (List.replicate (total es) none) = es.flatMap fun e => blockFlp e.body := by
  have := foldl_blocks (none : Option φ) writeFlp blockFlp ElemOk ?_ ?_ (fun e n h => h) es h []
  · simpa using this
  · intro pre post e he ho
    unfold writeFlp ElemOk at *
    cases hb : e.body with
    | die d =>
      simp only [hb] at he ⊢
      have hn : nLayersOf e = d.layers.length := by simp [nLayersOf, hb]
      rw [ho, writes_block _ _ _ _ (by simp [hn]), set_block _ _ _ _ _ (by simpa using he)]
      congr 3
      simp [blockFlp]
    | layer ly =>
      simp only [ho, nLayersOf, hb, blockFlp]
      have := set_block pre [none] post 0 none (by simp)
      simpa using this
    | channel ch => simp [nLayersOf, hb, blockFlp]
  · intro e he
    cases hb : e.body <;> simp [blockFlp, nLayersOf, hb]

end Verif.Stk
