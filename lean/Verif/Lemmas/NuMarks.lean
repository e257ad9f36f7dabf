import Verif.Props.NonUniformTile
import Verif.Model.NuOutput

set_option linter.unusedSectionVars false
set_option linter.unusedSimpArgs false
set_option linter.unusedVariables false

/-! Where the cells of the floorplan elements of a non-uniform grid are. -/

namespace Verif.NU
open Verif.Dim Verif.TG Verif.Stk Verif.SM

variable {K : Type} [Field K] [LinearOrder K] [IsStrictOrderedRing K]
variable {d0 : Dims K} {decl : Option (Channel K)} {rs : List (Raw K (List (FEl K)))} {ns : List (NElem K)} {G : Grid K}

theorem stackLayers_append (d : Dims K) (P R : List (NElem K)) (cur : Nat) :
    stackLayers d cur (P ++ R) = stackLayers d cur P ++ stackLayers d (cur + (stackLayers d cur P).length) R := by
  induction P generalizing cur with
  | nil => rfl
  | cons n P ih =>
    have h1 : ∀ X, stackLayers d cur (n :: X) = elemLayers d cur n ++ stackLayers d (cur + (elemLayers d cur n).length) X := fun _ => rfl
    rw [List.cons_append, h1, h1, ih, List.append_assoc, List.length_append, Nat.add_assoc]

theorem stackMarks_at (d : Dims K) (P : List (NElem K)) (n : NElem K) (Q : List (NElem K)) (cur pos : Nat) :
    (stackMarks d cur pos (P ++ n :: Q))[P.length]? =
      some (elemMarks (cur + (stackLayers d cur P).length) (pos + ((stackLayers d cur P).map List.length).sum) n) := by
  induction P generalizing cur pos with
  | nil => simp [stackMarks, stackLayers]
  | cons m P ih =>
    rw [List.cons_append]
    unfold stackMarks stackLayers
    rw [List.length_cons, List.getElem?_cons_succ, ih, List.length_append, List.map_append, List.sum_append, Nat.add_assoc, Nat.add_assoc]

theorem FromStack.elemOk (hf : FromStack d0 decl rs ns G) {n : NElem K} (hn : n ∈ ns) : ElemOk n.elem := by
  obtain ⟨p, hb, he, hd, -⟩ := hf.spec
  obtain ⟨es, m, hfa, -, -, -, -, -, hel, -⟩ := parseStack_spec hb.parse
  have hass : ∀ (k : Nat) (xs : List (SElem K (List (FEl K)))), (∀ e ∈ xs, ElemOk e) → ∀ e ∈ assignOffsets k xs, ElemOk e := by
    intro k xs
    induction xs generalizing k with
    | nil => intro _ e he; cases he
    | cons x xs ih =>
      intro hx e he
      rw [assignOffsets, List.mem_cons] at he
      rcases he with rfl | he
      · exact hx x List.mem_cons_self
      · exact ih _ (fun e he => hx e (List.mem_cons_of_mem _ he)) e he
  refine hass 0 es.reverse (fun e hx => ?_) _ ?_
  · obtain ⟨r, _, hr⟩ := mem_forall₂_right hfa (List.mem_reverse.mp hx)
    exact (resolve_block hb.ok hr).1
  · rw [← hel, ← he]; exact List.mem_map_of_mem hn

/-- The first layer of an element is above all the layers of the elements below it. -/
theorem FromStack.offset (hf : FromStack d0 decl rs ns G) {k : Nat} {n : NElem K} (hn : ns[k]? = some n) :
    n.elem.offset = ((ns.take k).map fun n => nLayersOf n.elem).sum := by
  obtain ⟨p, hb, he, hd, -⟩ := hf.spec
  obtain ⟨es, m, hfa, -, -, -, -, -, hel, -⟩ := parseStack_spec hb.parse
  have hlen : ns.length = es.reverse.length := by
    have := congrArg List.length (he.trans hel)
    rw [List.length_map, assignOffsets_length] at this
    exact this
  have hk : k < es.reverse.length := by rw [← hlen]; exact (List.getElem?_eq_some_iff.mp hn).1
  have h1 := assignOffsets_get es.reverse 0 k hk
  have h2 : (ns.map (·.elem))[k]? = some n.elem := by rw [List.getElem?_map, hn]; rfl
  rw [he, hel, h1] at h2
  have h3 := congrArg SElem.offset (Option.some.inj h2)
  simp only [Nat.zero_add] at h3
  rw [← h3, total_eq]
  have h4 : (ns.map fun n => nLayersOf n.elem) = es.reverse.map nLayersOf := by
    rw [← nLayersOf_assign es.reverse 0, ← hel, ← he, List.map_map]; rfl
  rw [List.map_take, ← h4, ← List.map_take]

theorem blockFlp_length {n : NElem K} : (blockFlp n.elem.body).length = nLayersOf n.elem := by
  unfold blockFlp nLayersOf
  cases hb : n.elem.body <;> simp [hb]

/-- Where the floorplan of a die is, and the indices recorded for its elements. -/
theorem die_at (hf : FromStack d0 decl rs ns G) {k : Nat} {n : NElem K} (hn : ns[k]? = some n) {b : Die K (List (FEl K))} (hb : n.elem.body = .die b) :
    sourceLayerOffset n.elem < G.d.nLayers ∧
    ((ns.map fixDiscr).flatMap fun n => blockFlp n.elem.body)[sourceLayerOffset n.elem]? = some (some (b.flp.map (fixEl n))) ∧
    (stackMarks G.d 0 0 (ns.map fixDiscr))[k]? = some (markEls (start G.ls (sourceLayerOffset n.elem)) (b.flp.map (fixEl n))) := by
  have hmem : n ∈ ns := List.mem_of_getElem? hn
  have hk := (List.getElem?_eq_some_iff.mp hn).1
  have hok := hf.elemOk hmem
  unfold ElemOk at hok
  rw [hb] at hok
  simp only at hok
  have hsplit : ns.map fixDiscr = (ns.take k).map fixDiscr ++ fixDiscr n :: (ns.drop (k + 1)).map fixDiscr := by
    conv_lhs => rw [← List.take_append_drop k ns, List.drop_eq_getElem_cons hk, (List.getElem?_eq_some_iff.mp hn).2, List.map_append, List.map_cons]
  have hsum : ((ns.take k).map fixDiscr).map (fun n => nLayersOf n.elem) = (ns.take k).map fun n => nLayersOf n.elem := by
    rw [List.map_map]; congr 1; funext q; exact nLayersOf_fix q
  have hfb : (fixDiscr n).elem.body = .die { b with flp := b.flp.map (fixEl n) } := by rw [fixed_die hb]
  have hsl : sourceLayerOffset n.elem = n.elem.offset + b.srcOff := by unfold sourceLayerOffset; rw [hb]
  have hlen : (stackLayers G.d 0 ((ns.take k).map fixDiscr)).length = n.elem.offset := by
    rw [stackLayers_length _ _ _, hsum, ← hf.offset hn]
  have hstack : stackLayers G.d 0 (ns.map fixDiscr) = stackLayers G.d 0 ((ns.take k).map fixDiscr) ++ ((List.range b.layers.length).map
      (dieLayer (fixDiscr n) { b with flp := b.flp.map (fixEl n) } n.elem.offset) ++
      stackLayers G.d (n.elem.offset + (elemLayers G.d n.elem.offset (fixDiscr n)).length) ((ns.drop (k + 1)).map fixDiscr)) := by
    rw [hsplit, stackLayers_append, hlen, Nat.zero_add]
    conv_lhs => rw [stackLayers]
    congr 2
    unfold elemLayers
    rw [hfb]
  have hnl := hf.nLayers
  refine ⟨?_, ?_, ?_⟩
  · rw [hsl, ← hnl, hstack, List.length_append, List.length_append, hlen, List.length_map, List.length_range]; omega
  · rw [hsl, hsplit, List.flatMap_append, List.flatMap_cons]
    have hl1 : (((ns.take k).map fixDiscr).flatMap fun n => blockFlp n.elem.body).length = n.elem.offset := by
      rw [List.length_flatMap, hf.offset hn, ← hsum]
      congr 1
      exact List.map_congr_left fun q hq => blockFlp_length
    rw [List.getElem?_append_right (by omega), hl1, Nat.add_sub_cancel_left]
    have hbl : blockFlp (fixDiscr n).elem.body = (b.layers.reverse.map fun _ => none).set b.srcOff (some (b.flp.map (fixEl n))) := by
      rw [hfb]; unfold blockFlp; simp
    rw [hbl, List.getElem?_append_left (by simp; omega), List.getElem?_set_self (by simp; omega)]
  · have hpl : ((ns.take k).map fixDiscr).length = k := by rw [List.length_map, List.length_take]; omega
    have hat := stackMarks_at G.d ((ns.take k).map fixDiscr) (fixDiscr n) ((ns.drop (k + 1)).map fixDiscr) 0 0
    rw [hpl] at hat
    rw [hsplit, hat, hlen, Nat.zero_add, Nat.zero_add]
    unfold elemMarks
    rw [hfb]
    simp only
    rw [if_pos (by omega)]
    congr 2
    obtain ⟨p, -, -, -, -, hls, -⟩ := hf.spec
    have htake : G.ls.take (sourceLayerOffset n.elem) = stackLayers G.d 0 ((ns.take k).map fixDiscr) ++ ((List.range b.srcOff).map
        (dieLayer (fixDiscr n) { b with flp := b.flp.map (fixEl n) } n.elem.offset)) := by
      rw [hls]
      unfold layersOf
      simp only
      rw [hstack, hsl, List.append_assoc, List.take_append, List.take_of_length_le (by omega), hlen, Nat.add_sub_cancel_left]
      congr 1
      rw [List.append_assoc, List.take_append_of_le_length (by simp; omega), ← List.map_take, List.take_range, Nat.min_eq_left (by omega)]
    unfold start
    rw [htake, List.map_append, List.sum_append]

/-- The marks of the elements of a floorplan. -/
theorem markEls_at (pos : Nat) (A : List (FEl K)) (e : FEl K) (B : List (FEl K)) :
    (markEls pos (A ++ e :: B))[A.length]? = some (pos + cellsOf A, pos + cellsOf A + e.dx * e.dy - 1) := by
  induction A generalizing pos with
  | nil => simp [markEls, cellsOf]
  | cons a A ih =>
    rw [List.cons_append]
    unfold markEls
    rw [List.length_cons, List.getElem?_cons_succ, ih]
    unfold cellsOf
    rw [List.map_cons, List.sum_cons]
    simp only [Nat.add_assoc]

/-- Every position in a floorplan belongs to one of its elements. -/
theorem cellsOf_locate (es : List (FEl K)) {s : Nat} (hs : s < cellsOf es) :
    ∃ A e B s', es = A ++ e :: B ∧ s = cellsOf A + s' ∧ s' < e.dx * e.dy := by
  induction es generalizing s with
  | nil => simp [cellsOf] at hs
  | cons e es ih =>
    by_cases h : s < e.dx * e.dy
    · exact ⟨[], e, es, s, rfl, by simp [cellsOf], h⟩
    · have : s - e.dx * e.dy < cellsOf es := by
        unfold cellsOf at hs ⊢
        rw [List.map_cons, List.sum_cons] at hs
        omega
      obtain ⟨A, e', B, s', h1, h2, h3⟩ := ih this
      refine ⟨e :: A, e', B, s', by rw [h1]; rfl, ?_, h3⟩
      unfold cellsOf at h2 ⊢
      rw [List.map_cons, List.sum_cons]
      omega

end Verif.NU
