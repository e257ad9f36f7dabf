import Verif.Props.Coolant
import Verif.Props.NonUniformOut

set_option linter.unusedSectionVars false
set_option linter.unusedSimpArgs false
set_option linter.unusedVariables false

/-! Where the layers of a stack with channels are, on a non-uniform grid. -/

namespace Verif.NU
open Verif.Dim Verif.TG Verif.Stk Verif.SM

variable {K : Type} [Field K] [LinearOrder K] [IsStrictOrderedRing K]

/-! ### Elements and layers -/

theorem stack_elem {d : Dims K} : ∀ (fs : List (NElem K)) (cur : Nat), assignOffsets cur (fs.map (·.elem)) = fs.map (·.elem) →
    (∀ n ∈ fs, (elemRecord n).length = nLayersOf n.elem) → ∀ n ∈ fs, ∀ k, k < nLayersOf n.elem →
      cur ≤ n.elem.offset ∧ (stackLayers d cur fs)[n.elem.offset - cur + k]? = (elemLayers d n.elem.offset n)[k]? ∧
      (fs.flatMap elemRecord)[n.elem.offset - cur + k]? = (elemRecord n)[k]?
  | [], _, _, _ => fun n hn => by cases hn
  | x :: fs, cur, ho, hr => by
    intro n hn k hk
    rw [List.map_cons, assignOffsets, List.cons.injEq] at ho
    obtain ⟨h1, h2⟩ := ho
    have hx : x.elem.offset = cur := by rw [← h1]
    have hlen := elemLayers_length d cur x
    rcases List.mem_cons.mp hn with rfl | hn
    · rw [hx, Nat.sub_self, Nat.zero_add]
      refine ⟨le_refl _, ?_, ?_⟩
      · rw [stackLayers, List.getElem?_append_left (by omega)]
      · rw [List.flatMap_cons, List.getElem?_append_left (by rw [hr n List.mem_cons_self]; exact hk)]
    · obtain ⟨g1, g2, g3⟩ := stack_elem fs (cur + nLayersOf x.elem) h2 (fun y hy => hr y (List.mem_cons_of_mem _ hy)) n hn k hk
      refine ⟨by omega, ?_, ?_⟩
      · rw [stackLayers, List.getElem?_append_right (by omega), hlen, ← g2]; congr 1; omega
      · rw [List.flatMap_cons, List.getElem?_append_right (by rw [hr x List.mem_cons_self]; omega), hr x List.mem_cons_self, ← g3]; congr 1; omega

theorem stack_cover : ∀ (fs : List (NElem K)) (cur l : Nat), assignOffsets cur (fs.map (·.elem)) = fs.map (·.elem) →
    l < (fs.map fun n => nLayersOf n.elem).sum → ∃ n ∈ fs, ∃ k, k < nLayersOf n.elem ∧ cur + l = n.elem.offset + k
  | [], _, l, _, hl => by simp at hl
  | x :: fs, cur, l, ho, hl => by
    rw [List.map_cons, assignOffsets, List.cons.injEq] at ho
    obtain ⟨h1, h2⟩ := ho
    have hx : x.elem.offset = cur := by rw [← h1]
    rw [List.map_cons, List.sum_cons] at hl
    by_cases h : l < nLayersOf x.elem
    · exact ⟨x, List.mem_cons_self, l, h, by omega⟩
    · obtain ⟨n, hn, k, hk, e⟩ := stack_cover fs (cur + nLayersOf x.elem) (l - nLayersOf x.elem) h2 (by omega)
      exact ⟨n, List.mem_cons_of_mem _ hn, k, hk, by omega⟩

section
variable {d0 : Dims K} {decl : Option (Channel K)} {rs : List (Raw K (List (FEl K)))} {ns : List (NElem K)} {G : Grid K}

theorem offset_fix (n : NElem K) : (fixDiscr n).elem.offset = n.elem.offset := by
  unfold fixDiscr; cases hb : n.elem.body <;> simp [hb]

theorem record_length {n : NElem K} (h : ElemOk n.elem) : (elemRecord (fixDiscr n)).length = nLayersOf (fixDiscr n).elem := by
  unfold ElemOk at h
  unfold fixDiscr elemRecord nLayersOf
  cases hb : n.elem.body with
  | die b => simp [hb]
  | layer ly => simp [hb]
  | channel ch =>
    rw [hb] at h
    simp only [hb]
    unfold chLayers
    cases hm : ch.model <;> simp_all

/-- The layers of an element. -/
theorem FromStack.layersAt (hf : FromStack d0 decl rs ns G) {n : NElem K} (hn : n ∈ ns) {k : Nat} (hk : k < nLayersOf n.elem) :
    n.elem.offset + k < G.d.nLayers ∧ G.ls[n.elem.offset + k]? = (elemLayers G.d n.elem.offset (fixDiscr n))[k]? ∧
      G.ty (n.elem.offset + k) = (elemRecord (fixDiscr n)).getD k 0 := by
  obtain ⟨p, hb, he, hd, -, hls, -, hns⟩ := hf.spec
  obtain ⟨es, m, hfa, -, -, -, -, -, hel, -⟩ := parseStack_spec hb.parse
  have hA := assign_fix ns es.reverse 0 (he.trans hel)
  have hR : ∀ x ∈ ns.map fixDiscr, (elemRecord x).length = nLayersOf x.elem := by
    intro x hx
    obtain ⟨y, hy, rfl⟩ := List.mem_map.mp hx
    exact record_length (hf.elemOk hy)
  obtain ⟨-, h2, h3⟩ := stack_elem (d := G.d) _ 0 hA hR (fixDiscr n) (List.mem_map_of_mem hn) k (by rw [nLayersOf_fix]; exact hk)
  rw [offset_fix, Nat.sub_zero] at h2 h3
  have hlt : k < (elemLayers G.d n.elem.offset (fixDiscr n)).length := by rw [elemLayers_length, nLayersOf_fix]; exact hk
  have hlt2 : n.elem.offset + k < (stackLayers G.d 0 (ns.map fixDiscr)).length := by
    by_contra hh
    rw [List.getElem?_eq_none (by omega), List.getElem?_eq_getElem hlt] at h2; cases h2
  refine ⟨by rw [← hf.nLayers]; exact hlt2, ?_, ?_⟩
  · rw [hls]; unfold layersOf; simp only
    rw [List.getElem?_append_left hlt2, h2]
  · unfold Grid.ty recordOf
    have hlt3 : k < (elemRecord (fixDiscr n)).length := by rw [record_length (hf.elemOk hn), nLayersOf_fix]; exact hk
    have hlt4 : n.elem.offset + k < ((ns.map fixDiscr).flatMap elemRecord).length := by
      by_contra hh
      rw [List.getElem?_eq_none (by omega), List.getElem?_eq_getElem hlt3] at h3; cases h3
    rw [hns, List.getD_eq_getElem?_getD, List.getElem?_append_left hlt4, h3, List.getD_eq_getElem?_getD]

/-- Every layer belongs to an element. -/
theorem FromStack.elemAt (hf : FromStack d0 decl rs ns G) {l : Nat} (hl : l < G.d.nLayers) :
    ∃ n ∈ ns, ∃ k, k < nLayersOf n.elem ∧ l = n.elem.offset + k := by
  obtain ⟨p, hb, he, hd, -, hls, -, hns⟩ := hf.spec
  obtain ⟨es, m, hfa, -, -, -, -, -, hel, -⟩ := parseStack_spec hb.parse
  have hA := assign_fix ns es.reverse 0 (he.trans hel)
  rw [← hf.nLayers, stackLayers_length] at hl
  obtain ⟨x, hx, k, hk, e⟩ := stack_cover _ 0 l hA hl
  obtain ⟨y, hy, rfl⟩ := List.mem_map.mp hx
  exact ⟨y, hy, k, by rw [← nLayersOf_fix]; exact hk, by rw [offset_fix] at e; omega⟩

/-- Position of a cell and its layer. -/
theorem FromStack.pos_layer (hf : FromStack d0 decl rs ns G) {i : Nat} (hi : i < G.cells.length) :
    ∃ lc, G.ls[G.cells[i].layer]? = some lc ∧ start G.ls G.cells[i].layer ≤ i ∧ i < start G.ls G.cells[i].layer + lc.length ∧
      start G.ls (G.cells[i].layer + 1) = start G.ls G.cells[i].layer + lc.length ∧ lc[i - start G.ls G.cells[i].layer]? = some G.cells[i] ∧
      (G.cells[i].layer < G.d.nLayers ∨ (G.cells[i].layer = G.d.nLayers ∧ ∃ s m, G.g.top = some (.pluggable s m))) := by
  have hmem : G.cells[i] ∈ G.cells := List.getElem_mem hi
  obtain ⟨lc, hlc, hin⟩ := List.mem_flatten.mp hmem
  obtain ⟨k, hk⟩ := List.mem_iff_getElem?.mp hlc
  have hlay := hf.layered k lc hk _ hin
  have hlt := (List.getElem?_eq_some_iff.mp hk).1
  have e : G.ls.flatten = (G.ls.take k).flatten ++ (lc ++ (G.ls.drop (k + 1)).flatten) := by
    conv_lhs => rw [← List.take_append_drop k G.ls, List.flatten_append, List.drop_eq_getElem_cons hlt, List.flatten_cons]
    rw [(List.getElem?_eq_some_iff.mp hk).2]
  have hfc : start G.ls k = (G.ls.take k).flatten.length := by rw [List.length_flatten]; rfl
  have hs : start G.ls (k + 1) = start G.ls k + lc.length := by rw [start_succ, hk]; rfl
  have hget : G.ls.flatten[i]? = some G.cells[i] := List.getElem?_eq_getElem hi
  have h1 : start G.ls k ≤ i := by
    by_contra hlt2
    rw [e, List.getElem?_append_left (by omega)] at hget
    have := hf.layered.before k _ (List.mem_of_getElem? hget)
    omega
  have h2 : i < start G.ls k + lc.length := by
    by_contra hge
    rw [e, List.getElem?_append_right (by omega), List.getElem?_append_right (by omega)] at hget
    have := hf.layered.after (k + 1) _ (List.mem_of_getElem? hget)
    omega
  have h3 : lc[i - start G.ls k]? = some G.cells[i] := by
    rw [e, List.getElem?_append_right (by omega), List.getElem?_append_left (by omega), ← hfc] at hget
    exact hget
  rw [hlay]
  refine ⟨lc, hk, h1, h2, hs, h3, ?_⟩
  rw [hf.layers] at hlt
  rcases hf.top with ⟨s, ht⟩ | ⟨s, m, ht⟩
  · rw [ht] at hlt; simp only at hlt; left; omega
  · rw [ht] at hlt; simp only at hlt
    by_cases h : k < G.d.nLayers
    · exact Or.inl h
    · exact Or.inr ⟨by omega, s, m, ht⟩

theorem FromStack.layer_of_pos (hf : FromStack d0 decl rs ns G) {i l : Nat} (hi : i < G.cells.length) (h1 : start G.ls l ≤ i)
    (h2 : i < start G.ls (l + 1)) : (G.cells[i]).layer = l := by
  obtain ⟨lc, -, a, b, e, -⟩ := hf.pos_layer hi
  rw [← e] at b
  exact layer_unique a b h1 h2

/-- The types of the layers of an element. -/
theorem FromStack.typesAt (hf : FromStack d0 decl rs ns G) {n : NElem K} (hn : n ∈ ns) {k : Nat} {t : LType}
    (ht : (blockTypes n.elem.body)[k]? = some t) : (stackTypes decl rs)[n.elem.offset + k]? = some t := by
  obtain ⟨p, hb, he, hd, -⟩ := hf.spec
  obtain ⟨es, m, hfa, -, -, -, -, -, hel, -⟩ := parseStack_spec hb.parse
  have hr := forall₂_reverse hfa
  have hmem : n.elem ∈ p.elems := by rw [← he]; exact List.mem_map_of_mem hn
  rw [hel] at hmem
  obtain ⟨i, hi0⟩ := List.getElem?_of_mem hmem
  have hi : i < es.reverse.length := by
    rw [← assignOffsets_length 0 es.reverse]; exact (List.getElem?_eq_some_iff.mp hi0).1
  rw [assignOffsets_get _ _ _ hi] at hi0
  simp only [Option.some.injEq, Nat.zero_add] at hi0
  have hoff : n.elem.offset = total (es.reverse.take i) := by rw [← hi0]
  have hbody : (es.reverse[i]).body = n.elem.body := by rw [← hi0]
  have hok : ∀ x ∈ es.reverse, (blockTypes x.body).length = nLayersOf x := by
    intro x hx
    obtain ⟨r, _, hrx⟩ := mem_forall₂_right hr hx
    obtain ⟨-, -, -, h4, h5, -, h7⟩ := resolve_block hb.ok hrx
    rw [h7, h4]
  have hlen1 : total (es.reverse.take i) = ((es.reverse.take i).flatMap fun x => blockTypes x.body).length :=
    total_eq_length _ _ fun x hx => hok x (List.mem_of_mem_take hx)
  have hT : stackTypes decl rs = es.reverse.flatMap fun x => blockTypes x.body :=
    flatMap_congr_forall₂ hr fun r x hrx => (resolve_block hb.ok hrx).2.2.2.1
  have hk : k < (blockTypes n.elem.body).length := (List.getElem?_eq_some_iff.mp ht).1
  rw [hT, hoff, hlen1, flatMap_getElem? _ _ i hi k (by rw [hbody]; exact hk), hbody, ht]

/-- The layers of dies and solid layers are solid. -/
theorem FromStack.solidAt (hf : FromStack d0 decl rs ns G) {n : NElem K} (hn : n ∈ ns) (hc : isChannel n.elem = false) {k : Nat}
    (hk : k < nLayersOf n.elem) : solidish (typeAt G.g (n.elem.offset + k)) = true := by
  obtain ⟨p, hb, he, hd, -⟩ := hf.spec
  have hok := hf.elemOk hn
  have hlen : k < (blockTypes n.elem.body).length := by
    unfold nLayersOf at hk
    unfold isChannel at hc
    cases hbd : n.elem.body <;> rw [hbd] at hc hk <;> simp [blockTypes] at hc hk ⊢ <;> omega
  have hget := List.getElem?_eq_getElem hlen
  have hs : solidish ((blockTypes n.elem.body)[k]) = true := by
    have := List.getElem_mem hlen
    generalize (blockTypes n.elem.body)[k] = t at this
    unfold isChannel at hc
    cases hbd : n.elem.body with
    | die b =>
      rw [hbd] at this
      simp only [blockTypes] at this
      rcases List.mem_or_eq_of_mem_set this with h | h
      · rw [(List.mem_replicate.mp h).2]; rfl
      · rw [h]; rfl
    | layer ly => rw [hbd] at this; simp only [blockTypes, List.mem_singleton] at this; subst this; rfl
    | channel ch => rw [hbd] at hc; cases hc
  rcases same_type hb (hf.typesAt hn hget) with e | ⟨-, e⟩
  · rw [e]; exact hs
  · exact e

/-- A channel of the stack: where its layers are, and what the grid says about them. -/
theorem FromStack.channel (hf : FromStack d0 decl rs ns G) {n : NElem K} (hn : n ∈ ns) {ch : Channel K} (hb : n.elem.body = .channel ch) :
    G.g.channel = some ch ∧ ch.model ≠ .none ∧ 0 < n.elem.offset ∧ n.elem.offset + chLayers ch < G.d.nLayers ∧
    (∀ (k : Nat) (t : LType), (chTypes ch.model)[k]? = some t → typeAt G.g (n.elem.offset + k) = t ∧
      layerAt G.g (n.elem.offset + k) = wallLayer ch ∧ height G.d (n.elem.offset + k) = ch.height) ∧
    (∀ k, k < chLayers ch → G.ls[n.elem.offset + k]? = some (channelLayer G.d ch.model n.elem.offset k) ∧
      G.ty (n.elem.offset + k) = (elemRecord n).getD k 0) := by
  obtain ⟨p, hbf, he, hd, -⟩ := hf.spec
  have hmem : n.elem ∈ p.elems := by rw [← he]; exact List.mem_map_of_mem hn
  obtain ⟨h1, h2, h3, h4⟩ := channel_at hbf hmem hb
  have hfix : fixDiscr n = n := by unfold fixDiscr; rw [hb]
  have hm := hf.elemOk hn
  unfold ElemOk at hm
  rw [hb] at hm
  rw [hd]
  refine ⟨h1, hm, h2, h3, h4, ?_⟩
  intro k hk
  obtain ⟨-, g2, g3⟩ := hf.layersAt hn (k := k) (by unfold nLayersOf; rw [hb]; exact hk)
  rw [hfix] at g2 g3
  refine ⟨?_, g3⟩
  rw [g2, ← hd]
  unfold elemLayers
  rw [hb]
  simp only [List.getElem?_map]
  rw [List.getElem?_range hk]; rfl

end

end Verif.NU
