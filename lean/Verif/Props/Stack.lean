import Verif.Lemmas.Stack
import Verif.Props.Dimensions
import Mathlib.Data.List.Forall2
import Mathlib.Data.List.Nodup
import Mathlib.Algebra.Order.Field.Rat

set_option linter.unusedSectionVars false
set_option linter.unusedSimpArgs false

/-! C16, C17, C18, C38: the stack section and the thermal grid. -/

namespace Verif.Stk
open Verif.Dim Verif.TG

variable {K φ : Type} [Field K] [LinearOrder K]

/-! ## Specification: what the stack file says about each layer, from the bottom up -/

/-- Layer types of one element of the file. -/
def specTypes (decl : Option (Channel K)) (r : Raw K φ) : List LType :=
  match r.body with
  | .die d => d.below.map (fun _ => .solid) ++ [.source] ++ d.above.map (fun _ => .solid)
  | .layer _ => [.solid]
  | .channel =>
    match decl.map (fun ch => ch.model) with
    | some ChModel.mc4rm => [.ch4rm]
    | some ChModel.mc2rm => [.bottomWall, .vwallCh, .ch2rm, .topWall]
    | some ChModel.pfInline => [.bottomWall, .vwallPf, .pfInline, .topWall]
    | some ChModel.pfStag => [.bottomWall, .vwallPf, .pfStag, .topWall]
    | _ => []

/-- Heights of the layers of one element: a file lists the layers of a die from its top. -/
def specHeights (decl : Option (Channel K)) (r : Raw K φ) : List K :=
  match r.body with
  | .die d => (d.below.reverse ++ [d.source] ++ d.above.reverse).map (·.height)
  | .layer ly => [ly.height]
  | .channel =>
    match decl with
    | some ch => if ch.model = .mc4rm then [ch.height] else [ch.height, ch.height, ch.height, ch.height]
    | none => []

/-- Floorplan carried by each layer of one element: the source layer of a die, and no other. -/
def specFlps (decl : Option (Channel K)) (r : Raw K φ) : List (Option φ) :=
  match r.body with
  | .die d => d.below.map (fun _ => none) ++ [some d.flp] ++ d.above.map (fun _ => none)
  | .layer _ => [none]
  | .channel => (specTypes decl r).map fun _ => none

/-- The declared channel, if any, has one of the four models. -/
def DeclOk (decl : Option (Channel K)) : Prop := ∀ ch, decl = some ch → ch.model ≠ .none

/-! ## What the parser accepts -/

theorem foldlM_addElement {decl : Option (Channel K)} {rs : List (Raw K φ)} {acc es : List (SElem K φ)}
    (h : rs.foldlM (addElement decl) acc = some es) :
    ∃ t, es = acc ++ t ∧ List.Forall₂ (fun r e => resolve decl r = some e) rs t ∧
      ((acc.map (·.id)).Nodup → (es.map (·.id)).Nodup) ∧
      ((acc.head?.map isChannel).getD false = true → ∀ e ∈ t, isChannel e = false) := by
  induction rs generalizing acc with
  | nil =>
    simp only [List.foldlM_nil, Option.pure_def, Option.some.injEq] at h
    subst h
    exact ⟨[], by simp, .nil, id, by simp⟩
  | cons r rs ih =>
    rw [List.foldlM_cons] at h
    cases h1 : addElement decl acc r with
    | none => rw [h1] at h; simp at h
    | some acc1 =>
      rw [h1] at h
      simp only [Option.bind_eq_bind, Option.bind_some] at h
      obtain ⟨t, ht, hf, hn, hc⟩ := ih h
      unfold addElement at h1
      cases he : resolve decl r with
      | none => rw [he] at h1; simp at h1
      | some e =>
        rw [he] at h1
        simp only [Option.bind_some] at h1
        split at h1
        · cases h1
        · split at h1
          · cases h1
          · rename_i hid hch
            simp only [Option.some.injEq] at h1
            subst h1
            refine ⟨e :: t, by simp [ht], .cons he hf, fun hnd => hn ?_, fun hhead x hx => ?_⟩
            · rw [List.map_append, List.nodup_append]
              refine ⟨hnd, by simp, ?_⟩
              intro a ha b hb
              simp only [List.map_cons, List.map_nil, List.mem_singleton] at hb
              subst hb
              intro hab; subst hab
              simp only [List.mem_map] at ha
              obtain ⟨x, hx, hxe⟩ := ha
              apply hid
              simp only [List.any_eq_true, decide_eq_true_eq]
              exact ⟨x, hx, hxe⟩
            · have hcase : x = e ∨ x ∈ t := by simpa using hx
              rcases hcase with rfl | hx
              · simp only [hhead, Bool.true_and, Bool.not_eq_true] at hch; exact hch
              · have : ((acc ++ [e]).head?.map isChannel).getD false = true := by
                  cases acc with
                  | nil => simp at hhead
                  | cons a as => simpa using hhead
                exact hc this x hx

theorem parseElements_spec {decl : Option (Channel K)} {rs : List (Raw K φ)} {es : List (SElem K φ)}
    (h : parseElements decl rs = some es) :
    List.Forall₂ (fun r e => resolve decl r = some e) rs es ∧ (es.map (·.id)).Nodup ∧ rs ≠ [] := by
  cases rs with
  | nil => simp [parseElements] at h
  | cons r rs =>
    simp only [parseElements] at h
    cases he : resolve decl r with
    | none => rw [he] at h; simp at h
    | some e =>
      rw [he] at h
      simp only [Option.bind_some] at h
      obtain ⟨t, ht, hf, hn, -⟩ := foldlM_addElement h
      subst ht
      exact ⟨.cons he hf, hn (by simp), by simp⟩

/-- Everything a successful parse establishes. -/
theorem parseStack_spec {d : Dims K} {decl : Option (Channel K)} {s : Option (Spreader K)} {rs : List (Raw K φ)} {p : Parsed K φ}
    (h : parseStack d decl s rs = some p) :
    ∃ es n, List.Forall₂ (fun r e => resolve decl r = some e) rs es ∧ (es.map (·.id)).Nodup ∧ rs ≠ [] ∧
      (∃ e ∈ es, isDie e = true) ∧ (∀ e, es.getLast? = some e → isChannel e = false) ∧
      (∀ e, es.head? = some e → isChannel e = false) ∧
      p.elems = assignOffsets 0 es.reverse ∧
      p.dims = { d with nLayers := total es.reverse, heights := es.reverse.flatMap heightsOf, nCells := n } ∧
      countCells { d with nLayers := total es.reverse, heights := es.reverse.flatMap heightsOf } s = some n ∧
      p.nConn = SM.numConnections { d with nLayers := total es.reverse, heights := es.reverse.flatMap heightsOf }
        ((decl.map (·.model)).getD .none) (es.filter isChannel).length s := by
  unfold parseStack at h
  cases hpe : parseElements decl rs with
  | none => rw [hpe] at h; simp at h
  | some es =>
    rw [hpe] at h
    obtain ⟨h1, h2, h3⟩ := parseElements_spec hpe
    simp only [Option.bind_some] at h
    split at h
    · cases h
    · split at h
      · cases h
      · split at h
        · cases h
        · rename_i a1 a2 a3
          have ht : countLayers 0 es.reverse = total es.reverse := by rw [countLayers_eq, Nat.zero_add]
          simp only [ht, Option.map_eq_some_iff] at h
          obtain ⟨n, hn, rfl⟩ := h
          refine ⟨es, n, h1, h2, h3, ?_, ?_, ?_, rfl, rfl, hn, rfl⟩
          · have : es.filter isDie ≠ [] := by intro hh; simp [hh] at a1
            obtain ⟨e, he⟩ := List.exists_mem_of_ne_nil _ this
            rw [List.mem_filter] at he
            exact ⟨e, he⟩
          · intro e he; rw [he] at a2; simpa using a2
          · intro e he; rw [he] at a3; simpa using a3

theorem resolve_block {decl : Option (Channel K)} (hd : DeclOk decl) {r : Raw K φ} {e : SElem K φ} (h : resolve decl r = some e) :
    ElemOk e ∧ e.id = r.id ∧ e.offset = 0 ∧ specTypes decl r = blockTypes e.body ∧ specHeights decl r = heightsOf e ∧
      specFlps decl r = blockFlp e.body ∧ nLayersOf e = (specTypes decl r).length := by
  unfold resolve at h
  cases hb : r.body with
  | die dd =>
    rw [hb] at h
    simp only [Option.some.injEq] at h
    subst h
    have hs : (parseDie dd).srcOff = dd.below.length := by
      simp only [parseDie]
      have : ∀ (l : List (Layer K)) n, l.foldl (fun n _ => n + 1) n = n + l.length := by
        intro l; induction l with
        | nil => simp
        | cons a l ih => intro n; simp only [List.foldl_cons, ih, List.length_cons]; omega
      rw [this, Nat.zero_add]
    have hl : (parseDie dd).layers.length = dd.below.length + (1 + dd.above.length) := by
      simp only [parseDie, List.length_append, List.length_cons, List.length_nil]; omega
    have hset : ∀ {α : Type} (x y : α), (List.replicate (dd.below.length + (1 + dd.above.length)) x).set dd.below.length y =
        dd.below.map (fun _ => x) ++ [y] ++ dd.above.map (fun _ => x) := by
      intro α x y
      rw [← List.replicate_append_replicate, List.set_append_right _ _ (by simp)]
      simp only [List.length_replicate, Nat.sub_self]
      rw [Nat.add_comm 1, List.replicate_succ, List.set_cons_zero]
      simp [List.map_const']
    refine ⟨?_, rfl, rfl, ?_, ?_, ?_, ?_⟩
    · simp only [ElemOk, hs, hl]; omega
    · simp only [specTypes, hb, blockTypes, hs, hl, hset]
    · simp [specHeights, hb, heightsOf, parseDie]
    · simp only [specFlps, hb, blockFlp, hs, hl, hset]; rfl
    · simp only [nLayersOf, hl, specTypes, hb, List.length_append, List.length_map, List.length_cons, List.length_nil]; omega
  | layer ly =>
    rw [hb] at h
    simp only [Option.some.injEq] at h
    subst h
    simp [ElemOk, specTypes, specHeights, specFlps, hb, blockTypes, heightsOf, blockFlp, nLayersOf]
  | channel =>
    rw [hb] at h
    cases hdecl : decl with
    | none => rw [hdecl] at h; simp at h
    | some ch =>
      rw [hdecl] at h
      simp only [Option.map_some, Option.some.injEq] at h
      subst h
      have := hd ch hdecl
      refine ⟨this, rfl, rfl, ?_, ?_, ?_, ?_⟩ <;>
        cases hm : ch.model <;>
        simp_all [ElemOk, specTypes, specHeights, specFlps, blockTypes, heightsOf, blockFlp, nLayersOf, chTypes, chLayers,
          List.replicate]

theorem flatMap_congr_forall₂ {α β γ : Type} {R : α → β → Prop} {l1 : List α} {l2 : List β} (h : List.Forall₂ R l1 l2)
    {f : α → List γ} {g : β → List γ} (hfg : ∀ a b, R a b → f a = g b) : l1.flatMap f = l2.flatMap g := by
  induction h with
  | nil => rfl
  | cons h1 h2 ih => simp [hfg _ _ h1, ih]

theorem forall₂_reverse {α β : Type} {R : α → β → Prop} {l1 : List α} {l2 : List β} (h : List.Forall₂ R l1 l2) :
    List.Forall₂ R l1.reverse l2.reverse := List.rel_reverse h

theorem total_eq_length (es : List (SElem K φ)) (f : SElem K φ → List LType) (h : ∀ e ∈ es, (f e).length = nLayersOf e) :
    total es = (es.flatMap f).length := by
  induction es with
  | nil => rfl
  | cons e es ih =>
    have h1 := h e (by simp)
    have h2 := ih fun x hx => h x (by simp [hx])
    simp only [total, List.map_cons, List.sum_cons, List.flatMap_cons, List.length_append] at *
    omega

theorem mem_forall₂_right {α β : Type} {R : α → β → Prop} {l1 : List α} {l2 : List β} (h : List.Forall₂ R l1 l2) {b : β} (hb : b ∈ l2) :
    ∃ a ∈ l1, R a b := by
  induction h with
  | nil => cases hb
  | cons h1 h2 ih =>
    rcases List.mem_cons.mp hb with rfl | hb
    · exact ⟨_, by simp, h1⟩
    · obtain ⟨a, ha, hr⟩ := ih hb
      exact ⟨a, by simp [ha], hr⟩

/-- Layer types of the whole stack, bottom-up, before sinks are attached. -/
def stackTypes (decl : Option (Channel K)) (rs : List (Raw K φ)) : List LType := rs.reverse.flatMap (specTypes decl)

/-! ## C16 -/

/-- The number of layers, their heights, their types (before sinks) and their floorplans are those written in the file,
element by element from the last one listed (the bottom) to the first. -/
theorem C16_layers_match_file {d : Dims K} {decl : Option (Channel K)} (hd : DeclOk decl) {s : Option (Spreader K)} {rs : List (Raw K φ)}
    {p : Parsed K φ} (h : parseStack d decl s rs = some p) :
    p.dims.nLayers = (stackTypes decl rs).length ∧
    p.dims.heights = rs.reverse.flatMap (specHeights decl) ∧
    p.dims.heights.length = p.dims.nLayers ∧
    (∃ g, fillGrid p.dims.nLayers p.elems none none = some g ∧ g.types = stackTypes decl rs ∧ g.nLayers = p.dims.nLayers ∧
      g.layers.map (·.height) = p.dims.heights) ∧
    fillFloorplans p.dims.nLayers p.elems = rs.reverse.flatMap (specFlps decl) ∧
    LType.none ∉ stackTypes decl rs := by
  obtain ⟨es, n, hf, hn, hne, hdie, hlast, hhead, he, hdim, -, -⟩ := parseStack_spec h
  have hr := forall₂_reverse hf
  have hok : ∀ e ∈ es.reverse, ElemOk e := by
    intro e hx
    obtain ⟨r, _, hre⟩ := mem_forall₂_right hr hx
    exact (resolve_block hd hre).1
  have e1 : stackTypes decl rs = es.reverse.flatMap fun e => blockTypes e.body :=
    flatMap_congr_forall₂ hr fun r e hre => (resolve_block hd hre).2.2.2.1
  have e2 : rs.reverse.flatMap (specHeights decl) = es.reverse.flatMap heightsOf :=
    flatMap_congr_forall₂ hr fun r e hre => (resolve_block hd hre).2.2.2.2.1
  have e3 : rs.reverse.flatMap (specFlps decl) = es.reverse.flatMap fun e => blockFlp e.body :=
    flatMap_congr_forall₂ hr fun r e hre => (resolve_block hd hre).2.2.2.2.2.1
  have hlen : total es.reverse = (stackTypes decl rs).length := by
    rw [e1]
    refine total_eq_length _ _ fun e hx => ?_
    obtain ⟨r, _, hre⟩ := mem_forall₂_right hr hx
    have := resolve_block hd hre
    rw [← this.2.2.2.1, this.2.2.2.2.2.2]
  have hbh : ∀ e : SElem K φ, (blockLayers e.body).map (·.height) = heightsOf e := by
    intro e; cases hb : e.body <;> simp [blockLayers, heightsOf, hb, wallLayer]
  have hbl : (es.reverse.flatMap fun e => blockLayers e.body).map (·.height) = es.reverse.flatMap heightsOf := by
    rw [List.map_flatMap]; congr 1; funext e; exact hbh e
  have hll : (es.reverse.flatMap heightsOf).length = total es.reverse := by
    rw [total_eq_length es.reverse (fun e => (heightsOf e).map fun _ => LType.none)]
    · simp [List.length_flatMap]
    · intro e _; rw [← hbh e]
      cases hb : e.body <;> simp [blockLayers, nLayersOf, hb]
  rw [he, hdim]
  refine ⟨hlen, e2.symm, hll, ?_, ?_, ?_⟩
  · refine ⟨_, rfl, ?_, rfl, ?_⟩
    · simp only [foldl_types _ hok, e1]
    · simp only [foldl_layers, hbl]
  · simp only [fillFloorplans]
    rw [foldl_flp _ hok, e3]
  · rw [stackTypes]
    simp only [List.mem_flatMap, not_exists, not_and]
    intro r _ hmem
    revert hmem
    unfold specTypes
    cases r.body with
    | die d => simp
    | layer ly => simp
    | channel =>
      cases hx : decl.map (fun ch => ch.model) with
      | none => simp
      | some m => cases m <;> simp

theorem assignOffsets_get (es : List (SElem K φ)) (n i : Nat) (hi : i < es.length) :
    (assignOffsets n es)[i]? = some { es[i] with offset := n + total (es.take i) } := by
  induction es generalizing n i with
  | nil => simp at hi
  | cons e es ih =>
    cases i with
    | zero => simp [assignOffsets, total]
    | succ i =>
      simp only [assignOffsets, List.getElem?_cons_succ, List.getElem_cons_succ, List.take_succ_cons]
      rw [ih (n + nLayersOf e) i (by simpa using hi)]
      simp only [total, List.map_cons, List.sum_cons]
      congr 2; omega

theorem assignOffsets_length (n : Nat) (es : List (SElem K φ)) : (assignOffsets n es).length = es.length := by
  induction es generalizing n with
  | nil => rfl
  | cons e es ih => simp [assignOffsets, ih]

/-- Stack elements, listed from the bottom, start where the layers of the elements below them end. -/
theorem C16_offsets_contiguous {d : Dims K} {decl : Option (Channel K)} (hd : DeclOk decl) {s : Option (Spreader K)}
    {rs : List (Raw K φ)} {p : Parsed K φ} (h : parseStack d decl s rs = some p) :
    p.elems.length = rs.length ∧
    ∀ i (hi : i < rs.length), ∃ e, p.elems[i]? = some e ∧ e.id = (rs.reverse[i]'(by simpa using hi)).id ∧
      e.offset = ((rs.reverse.take i).flatMap (specTypes decl)).length ∧
      nLayersOf e = (specTypes decl (rs.reverse[i]'(by simpa using hi))).length := by
  obtain ⟨es, n, hf, hn, hne, hdie, hlast, hhead, he, hdim, -, -⟩ := parseStack_spec h
  have hr := forall₂_reverse hf
  have hlen : rs.reverse.length = es.reverse.length := hr.length_eq
  refine ⟨by rw [he, assignOffsets_length, ← hlen]; simp, ?_⟩
  intro i hi
  have hi1 : i < rs.reverse.length := by simpa using hi
  have hi2 : i < es.reverse.length := by omega
  rw [he, assignOffsets_get _ _ _ hi2]
  have hre : resolve decl rs.reverse[i] = some es.reverse[i] := by
    have := (List.forall₂_iff_get.mp hr).2 i hi1 hi2
    simpa using this
  obtain ⟨-, h2, -, h4, -, -, h7⟩ := resolve_block hd hre
  refine ⟨_, rfl, h2, ?_, h7⟩
  simp only [Nat.zero_add]
  have ht : List.Forall₂ (fun r e => resolve decl r = some e) (rs.reverse.take i) (es.reverse.take i) :=
    List.forall₂_take i hr
  rw [flatMap_congr_forall₂ ht (f := specTypes decl) (g := fun e => blockTypes e.body)
    fun r e hre => (resolve_block hd hre).2.2.2.1]
  refine total_eq_length _ _ fun e hx => ?_
  obtain ⟨r, _, hre⟩ := mem_forall₂_right ht hx
  have := resolve_block hd hre
  rw [← this.2.2.2.1, this.2.2.2.2.2.2]


/-- Index in a concatenation: the position just after the first `i` blocks, plus `k` inside block `i`. -/
theorem flatMap_getElem? {α β : Type} (L : List α) (f : α → List β) (i : Nat) (hi : i < L.length) (k : Nat) (hk : k < (f L[i]).length) :
    (L.flatMap f)[((L.take i).flatMap f).length + k]? = (f L[i])[k]? := by
  induction L generalizing i with
  | nil => simp at hi
  | cons a L ih =>
    cases i with
    | zero => simp only [List.take_zero, List.flatMap_nil, List.length_nil, Nat.zero_add, List.flatMap_cons, List.getElem_cons_zero] at *
              rw [List.getElem?_append_left hk]
    | succ i =>
      simp only [List.take_succ_cons, List.flatMap_cons, List.length_append, List.getElem_cons_succ] at *
      rw [Nat.add_assoc, List.getElem?_append_right (by omega), Nat.add_sub_cancel_left]
      exact ih i (by simpa using hi) hk

/-- Converse: each position of a concatenation lies in exactly one block. -/
theorem flatMap_locate {α β : Type} (L : List α) (f : α → List β) (l : Nat) (hl : l < (L.flatMap f).length) :
    ∃ i, ∃ hi : i < L.length, ∃ k, k < (f L[i]).length ∧ l = ((L.take i).flatMap f).length + k := by
  induction L generalizing l with
  | nil => simp at hl
  | cons a L ih =>
    by_cases h : l < (f a).length
    · exact ⟨0, by simp, l, by simpa using h, by simp⟩
    · simp only [List.flatMap_cons, List.length_append] at hl
      obtain ⟨i, hi, k, hk, he⟩ := ih (l - (f a).length) (by omega)
      refine ⟨i + 1, by simpa using hi, k, by simpa using hk, ?_⟩
      simp only [List.take_succ_cons, List.flatMap_cons, List.length_append]
      omega

theorem take_flatMap_mono {α β : Type} (L : List α) (f : α → List β) {i j : Nat} (hij : i < j) (hi : i < L.length) :
    ((L.take i).flatMap f).length + (f L[i]).length ≤ ((L.take j).flatMap f).length := by
  have e : L.take j = L.take i ++ (L.take j).drop i := by
    have h := (List.take_append_drop i (L.take j)).symm
    rwa [List.take_take, Nat.min_eq_left hij.le] at h
  have hd : (L.take j).drop i = L[i] :: (L.take j).drop (i + 1) := by
    rw [List.drop_eq_getElem_cons (by simp; omega)]; simp
  rw [e, hd]
  simp only [List.flatMap_append, List.length_append, List.flatMap_cons]
  omega

/-- Every layer of the grid belongs to exactly one stack element, and it is that element's layer. -/
theorem C16_every_layer_has_one_owner {d : Dims K} {decl : Option (Channel K)} (hd : DeclOk decl) {s : Option (Spreader K)}
    {rs : List (Raw K φ)} {p : Parsed K φ} (h : parseStack d decl s rs = some p) (l : Nat) (hl : l < p.dims.nLayers) :
    ∃! i : Nat, ∃ e : SElem K φ, p.elems[i]? = some e ∧ e.offset ≤ l ∧ l < e.offset + nLayersOf e := by
  have hn := (C16_layers_match_file hd h).1
  obtain ⟨hlen, hoff⟩ := C16_offsets_contiguous hd h
  rw [hn] at hl
  obtain ⟨i, hi, k, hk, he⟩ := flatMap_locate _ _ l hl
  have hi' : i < rs.length := by simpa using hi
  obtain ⟨e, h1, -, h3, h4⟩ := hoff i hi'
  refine ⟨i, ⟨e, h1, by omega, by omega⟩, ?_⟩
  rintro j ⟨e', g1, g2, g3⟩
  have hj : j < rs.length := by
    rw [← hlen]; exact (List.getElem?_eq_some_iff.mp g1).1
  obtain ⟨e'', f1, -, f3, f4⟩ := hoff j hj
  rw [f1] at g1
  simp only [Option.some.injEq] at g1
  subst g1
  by_contra hne
  rcases Nat.lt_or_gt_of_ne hne with hlt | hlt
  · have := take_flatMap_mono rs.reverse (specTypes decl) hlt (by simpa using hj)
    omega
  · have := take_flatMap_mono rs.reverse (specTypes decl) hlt hi
    omega

/-! ## C17 -/

theorem spec_lengths {decl : Option (Channel K)} (hd : DeclOk decl) {r : Raw K φ} {e : SElem K φ} (h : resolve decl r = some e) :
    (specHeights decl r).length = (specTypes decl r).length ∧ (specFlps decl r).length = (specTypes decl r).length := by
  unfold resolve at h
  unfold specHeights specFlps specTypes
  cases hb : r.body with
  | die dd => simp
  | layer ly => simp
  | channel =>
    rw [hb] at h
    cases hdecl : decl with
    | none => rw [hdecl] at h; simp at h
    | some ch => have := hd ch hdecl; cases hm : ch.model <;> simp_all

theorem flatMap_length_congr {α β γ : Type} (L : List α) (f : α → List β) (g : α → List γ) (h : ∀ a ∈ L, (f a).length = (g a).length) :
    (L.flatMap f).length = (L.flatMap g).length := by
  induction L with
  | nil => rfl
  | cons a L ih =>
    have h1 := h a (by simp)
    have h2 := ih fun x hx => h x (by simp [hx])
    simp only [List.flatMap_cons, List.length_append]; omega

/-- For a die of the stack, the layer marked as source, the layer carrying the die's floorplan (into which its powers are
injected) and the layer returned by `get_source_layer_offset` (used by the inspection points) are the same layer: the one
written `source` in the file, with as many layers of the die below it as the file lists below the source; every other layer
of the die is a plain solid one without floorplan. -/
theorem C17_source_layer_is_the_die_source {d : Dims K} {decl : Option (Channel K)} (hd : DeclOk decl) {s : Option (Spreader K)}
    {rs : List (Raw K φ)} {p : Parsed K φ} (h : parseStack d decl s rs = some p) (i : Nat) (hi : i < rs.length) (dd : RawDie K φ)
    (hb : (rs.reverse[i]'(by simpa using hi)).body = .die dd) :
    ∃ e, p.elems[i]? = some e ∧ sourceLayerOffset e = e.offset + dd.below.length ∧
      ∀ k, k < dd.below.length + 1 + dd.above.length →
        (stackTypes decl rs)[e.offset + k]? = some (if k = dd.below.length then .source else .solid) ∧
        (fillFloorplans p.dims.nLayers p.elems)[e.offset + k]? = some (if k = dd.below.length then some dd.flp else none) ∧
        p.dims.heights[e.offset + k]? = ((dd.below.reverse ++ [dd.source] ++ dd.above.reverse)[k]?).map (·.height) := by
  obtain ⟨-, hoff⟩ := C16_offsets_contiguous hd h
  obtain ⟨hn, hh, -, -, hfl, -⟩ := C16_layers_match_file hd h
  obtain ⟨es, n, hf, -, -, -, -, -, he, -, -, -⟩ := parseStack_spec h
  have hr := forall₂_reverse hf
  have hi1 : i < rs.reverse.length := by simpa using hi
  have hi2 : i < es.reverse.length := by rw [← hr.length_eq]; exact hi1
  obtain ⟨e, h1, h2, h3, h4⟩ := hoff i hi
  refine ⟨e, h1, ?_, ?_⟩
  · have hre : resolve decl rs.reverse[i] = some es.reverse[i] := by
      have := (List.forall₂_iff_get.mp hr).2 i hi1 hi2
      simpa using this
    rw [he, assignOffsets_get _ _ _ hi2] at h1
    simp only [Option.some.injEq] at h1
    have hbody : e.body = .die (parseDie dd) := by
      rw [← h1]
      unfold resolve at hre
      rw [hb] at hre
      simp only [Option.some.injEq] at hre
      rw [← hre]
    simp only [sourceLayerOffset, hbody, parseDie]
    have : ∀ (l : List (Layer K)) n, l.foldl (fun n _ => n + 1) n = n + l.length := by
      intro l; induction l with
      | nil => simp
      | cons a l ih => intro n; simp only [List.foldl_cons, ih, List.length_cons]; omega
    rw [this, Nat.zero_add]
  · intro k hk
    have hpre : ∀ r ∈ rs.reverse, ∃ e, resolve decl r = some e := by
      intro r hx
      have : List.Forall₂ (fun e r => resolve decl r = some e) es.reverse rs.reverse := hr.flip
      obtain ⟨e, _, h⟩ := mem_forall₂_right this hx
      exact ⟨e, h⟩
    have hL : ∀ r ∈ rs.reverse.take i, (specHeights decl r).length = (specTypes decl r).length ∧
        (specFlps decl r).length = (specTypes decl r).length := by
      intro r hx
      obtain ⟨e, h⟩ := hpre r (List.mem_of_mem_take hx)
      exact spec_lengths hd h
    have l1 := flatMap_length_congr (rs.reverse.take i) (specHeights decl) (specTypes decl) fun r hr => (hL r hr).1
    have l2 := flatMap_length_congr (rs.reverse.take i) (specFlps decl) (specTypes decl) fun r hr => (hL r hr).2
    have key : ∀ {α : Type} (x y : α), (dd.below.map (fun _ => x) ++ [y] ++ dd.above.map (fun _ => x))[k]? =
        some (if k = dd.below.length then y else x) := by
      intro α x y
      by_cases c1 : k < dd.below.length
      · rw [List.append_assoc, List.getElem?_append_left (by simpa using c1), if_neg (by omega)]
        rw [List.getElem?_map, List.getElem?_eq_getElem c1]; rfl
      · rw [List.append_assoc, List.getElem?_append_right (by simp; omega)]
        simp only [List.length_map]
        by_cases c2 : k = dd.below.length
        · subst c2; simp
        · rw [if_neg c2, List.getElem?_append_right (by simp; omega)]
          simp only [List.length_cons, List.length_nil]
          have : k - dd.below.length - (0 + 1) < dd.above.length := by omega
          rw [List.getElem?_map, List.getElem?_eq_getElem this]; rfl
    have ht : specTypes decl (rs.reverse[i]'hi1) = dd.below.map (fun _ => LType.solid) ++ [.source] ++ dd.above.map fun _ => .solid := by
      unfold specTypes; rw [hb]
    have hfp : specFlps decl (rs.reverse[i]'hi1) = dd.below.map (fun _ => none) ++ [some dd.flp] ++ dd.above.map fun _ => none := by
      unfold specFlps; rw [hb]
    have hhp : specHeights decl (rs.reverse[i]'hi1) = (dd.below.reverse ++ [dd.source] ++ dd.above.reverse).map (·.height) := by
      unfold specHeights; rw [hb]
    refine ⟨?_, ?_, ?_⟩
    · rw [h3, stackTypes, flatMap_getElem? _ _ _ hi1 _ (by rw [ht]; simp; omega), ht, key]
    · rw [hfl, h3, ← l2, flatMap_getElem? _ _ _ hi1 _ (by rw [hfp]; simp; omega), hfp, key]
    · rw [hh, h3, ← l1, flatMap_getElem? _ _ _ hi1 _ (by rw [hhp]; simp; omega), hhp, List.getElem?_map]

/-- Floorplans sit in source layers and nowhere else, and every source layer has one. -/
theorem C17_floorplans_only_in_source_layers {d : Dims K} {decl : Option (Channel K)} (hd : DeclOk decl) {s : Option (Spreader K)}
    {rs : List (Raw K φ)} {p : Parsed K φ} (h : parseStack d decl s rs = some p) (l : Nat) :
    (∃ f, (fillFloorplans p.dims.nLayers p.elems)[l]? = some (some f)) ↔ (stackTypes decl rs)[l]? = some .source := by
  obtain ⟨hn, hh, -, -, hfl, -⟩ := C16_layers_match_file hd h
  have hm : (rs.reverse.flatMap (specFlps decl)).map Option.isSome = (stackTypes decl rs).map (fun t => decide (t = .source)) := by
    rw [stackTypes, List.map_flatMap, List.map_flatMap]
    congr 1; funext r
    unfold specFlps specTypes
    cases r.body with
    | die dd => simp
    | layer ly => simp
    | channel =>
      simp only
      cases decl.map (fun ch => ch.model) with
      | none => simp
      | some m => cases m <;> simp
  have hl := congrArg (fun x => x[l]?) hm
  simp only [List.getElem?_map] at hl
  rw [hfl]
  cases h1 : (rs.reverse.flatMap (specFlps decl))[l]? with
  | none =>
    rw [h1] at hl
    cases h2 : (stackTypes decl rs)[l]? with
    | none => simp
    | some t => rw [h2] at hl; simp at hl
  | some o =>
    rw [h1] at hl
    cases h2 : (stackTypes decl rs)[l]? with
    | none => rw [h2] at hl; simp at hl
    | some t =>
      rw [h2] at hl
      simp only [Option.map_some, Option.some.injEq] at hl
      cases o with
      | none => simp at hl; simpa using Ne.symm (Ne.symm hl)
      | some f => simp at hl; simp [hl.symm]

/-! ## C18 -/

/-- Specification: what attaching a top sink makes of the type of the topmost layer. -/
def withTop : Option (TopSink K) → LType → LType
  | none, t => t
  | some (.ambient _), t => if t = .source then .sourceAmb else .solidAmb
  | some (.pluggable _ _), t => if t = .source then .sourceSpr else .solidSpr

/-- Specification: what attaching a bottom sink makes of the type of the bottommost layer. -/
def withBottom : Option (Sink K) → LType → LType
  | none, t => t
  | some _, t => if t = .source then .sourcePcb else .solidPcb

theorem flatMap_ends {α β : Type} {L : List α} {f : α → List β} (P : β → Prop) (hne : L ≠ [])
    (hh : ∀ a, L.head? = some a → f a ≠ [] ∧ ∀ b ∈ f a, P b) (hl : ∀ a, L.getLast? = some a → f a ≠ [] ∧ ∀ b ∈ f a, P b) :
    (∃ b, (L.flatMap f)[0]? = some b ∧ P b) ∧ ∃ b, (L.flatMap f)[(L.flatMap f).length - 1]? = some b ∧ P b := by
  constructor
  · cases L with
    | nil => exact absurd rfl hne
    | cons a L =>
      obtain ⟨h1, h2⟩ := hh a rfl
      cases hf : f a with
      | nil => exact absurd hf h1
      | cons b bs => exact ⟨b, by simp [hf], h2 b (by simp [hf])⟩
  · obtain ⟨L', a, rfl⟩ : ∃ L' a, L = L' ++ [a] := ⟨L.dropLast, L.getLast hne, (List.dropLast_append_getLast hne).symm⟩
    obtain ⟨h1, h2⟩ := hl a (by simp)
    obtain ⟨bs, b, hb⟩ : ∃ bs b, f a = bs ++ [b] := ⟨(f a).dropLast, (f a).getLast h1, (List.dropLast_append_getLast h1).symm⟩
    refine ⟨b, ?_, h2 b (by simp [hb])⟩
    simp [hb, List.flatMap_append]

/-- An accepted stack has at least one layer, and its bottommost and topmost layers are solid ones. -/
theorem stack_ends {d : Dims K} {decl : Option (Channel K)} {s : Option (Spreader K)}
    {rs : List (Raw K φ)} {p : Parsed K φ} (h : parseStack d decl s rs = some p) :
    (∃ t, (stackTypes decl rs)[0]? = some t ∧ (t = .solid ∨ t = .source)) ∧
    ∃ t, (stackTypes decl rs)[(stackTypes decl rs).length - 1]? = some t ∧ (t = .solid ∨ t = .source) := by
  obtain ⟨es, n, hf, -, hne, -, hlast, hhead, -, -, -, -⟩ := parseStack_spec h
  have hr := forall₂_reverse hf
  have key : ∀ (r : Raw K φ) (e : SElem K φ), resolve decl r = some e → isChannel e = false → specTypes decl r ≠ [] ∧
      ∀ b ∈ specTypes decl r, b = LType.solid ∨ b = .source := by
    intro r e hre hc
    unfold resolve at hre
    unfold specTypes
    cases hb : r.body with
    | die dd =>
      refine ⟨by simp, fun b hb => ?_⟩
      simp only [List.append_assoc, List.mem_append, List.mem_map, List.mem_singleton] at hb
      rcases hb with ⟨_, _, rfl⟩ | rfl | ⟨_, _, rfl⟩ <;> simp
    | layer ly => simp
    | channel =>
      rw [hb] at hre
      cases hdecl : decl with
      | none => rw [hdecl] at hre; simp at hre
      | some ch =>
        rw [hdecl] at hre
        simp only [Option.map_some, Option.some.injEq] at hre
        subst hre
        simp [isChannel] at hc
  refine flatMap_ends _ (by simpa using hne) ?_ ?_
  · intro r hx
    rw [List.head?_reverse] at hx
    have hlen := hf.length_eq
    rw [List.getLast?_eq_getElem?] at hx
    obtain ⟨h1, h2⟩ := List.getElem?_eq_some_iff.mp hx
    have h3 : rs.length - 1 < es.length := by omega
    refine key r (es[rs.length - 1]) ?_ (hlast _ ?_)
    · have := (List.forall₂_iff_get.mp hf).2 (rs.length - 1) h1 h3
      simp only [List.get_eq_getElem, h2] at this
      exact this
    · rw [List.getLast?_eq_getElem?, ← hlen, List.getElem?_eq_getElem h3]
  · intro r hx
    rw [List.getLast?_reverse] at hx
    cases hf with
    | nil => simp at hx
    | cons h1 h2 =>
      simp only [List.head?_cons, Option.some.injEq] at hx
      subst hx
      exact key _ _ h1 (hhead _ rfl)

theorem any_is4rm {d : Dims K} {decl : Option (Channel K)} (hd : DeclOk decl) {s : Option (Spreader K)}
    {rs : List (Raw K φ)} {p : Parsed K φ} (h : parseStack d decl s rs = some p) :
    p.elems.any is4rm = true ↔ LType.ch4rm ∈ stackTypes decl rs := by
  obtain ⟨es, n, hf, -, -, -, -, -, he, -, -, -⟩ := parseStack_spec h
  have hr := forall₂_reverse hf
  have e1 : stackTypes decl rs = es.reverse.flatMap fun e => blockTypes e.body :=
    flatMap_congr_forall₂ hr fun r e hre => (resolve_block hd hre).2.2.2.1
  have h1 : ∀ (L : List (SElem K φ)) k, (assignOffsets k L).any is4rm = L.any is4rm := by
    intro L; induction L with
    | nil => intro k; rfl
    | cons a L ih => intro k; simp only [assignOffsets, List.any_cons, ih]; rfl
  rw [he, h1, e1, List.any_eq_true]
  simp only [List.mem_flatMap]
  refine exists_congr fun e => and_congr_right fun _ => ?_
  unfold is4rm blockTypes
  cases hb : e.body with
  | die dd =>
    simp only [Bool.false_eq_true, false_iff]
    intro hm
    rcases List.mem_or_eq_of_mem_set hm with h | h
    · simp at h
    · cases h
  | layer ly => simp
  | channel ch => cases hm : ch.model <;> simp [chTypes, hm]

/-- A thermal grid is refused exactly when the top and bottom sinks would share the only layer of the stack, or when a
pluggable sink is used with 4RM microchannels. -/
theorem C18_refused_iff {d : Dims K} {decl : Option (Channel K)} (hd : DeclOk decl) {s : Option (Spreader K)}
    {rs : List (Raw K φ)} {p : Parsed K φ} (h : parseStack d decl s rs = some p) (top : Option (TopSink K)) (bottom : Option (Sink K)) :
    fillGrid p.dims.nLayers p.elems top bottom = none ↔
      (top.isSome ∧ bottom.isSome ∧ p.dims.nLayers = 1) ∨
      ((∃ sp m, top = some (.pluggable sp m)) ∧ LType.ch4rm ∈ stackTypes decl rs) := by
  obtain ⟨hn, -, -, ⟨g0, hg0, ht0, -, -⟩, -, -⟩ := C16_layers_match_file hd h
  obtain ⟨⟨t0, h0, h0'⟩, ⟨t1, h1, h1'⟩⟩ := stack_ends h
  have h4 := any_is4rm hd h
  have hT : p.elems.foldl writeTypes (List.replicate p.dims.nLayers LType.none) = stackTypes decl rs := by
    simp only [fillGrid, applyTop, applyBottom, Option.bind_some, Option.map_some, Option.some.injEq] at hg0
    rw [← ht0, ← hg0]
  unfold fillGrid
  simp only [hT]
  rw [← hn] at h1
  have hpos : 0 < p.dims.nLayers := by
    rw [hn]; exact (List.getElem?_eq_some_iff.mp h0).1
  have hg1 : (stackTypes decl rs).getD (p.dims.nLayers - 1) .none = t1 := by rw [List.getD_eq_getElem?_getD, h1]; rfl
  have hg0' : (stackTypes decl rs).getD 0 .none = t0 := by rw [List.getD_eq_getElem?_getD, h0]; rfl
  generalize stackTypes decl rs = T at *
  cases top with
  | none =>
    simp only [applyTop, Option.bind_some, Option.map_eq_none_iff]
    cases bottom with
    | none => simp [applyBottom]
    | some b =>
      simp only [applyBottom, hg0']
      rcases h0' with rfl | rfl <;> simp
  | some t =>
    have hset : ∀ v, (T.set (p.dims.nLayers - 1) v).getD 0 .none = if p.dims.nLayers = 1 then v else t0 := by
      intro v
      rw [List.getD_eq_getElem?_getD, List.getElem?_set]
      by_cases hc : p.dims.nLayers = 1
      · rw [if_pos (by omega), if_pos hc, if_pos (by omega)]; rfl
      · rw [if_neg (by omega), if_neg hc, h0]; rfl
    have hbot : ∀ v, v = LType.solidAmb ∨ v = .sourceAmb ∨ v = .solidSpr ∨ v = .sourceSpr →
        ((applyBottom bottom (T.set (p.dims.nLayers - 1) v)) = none ↔ bottom.isSome ∧ p.dims.nLayers = 1) := by
      intro v hv
      cases bottom with
      | none => simp [applyBottom]
      | some b =>
        simp only [applyBottom, hset]
        by_cases hc : p.dims.nLayers = 1
        · rw [if_pos hc]; rcases hv with rfl | rfl | rfl | rfl <;> simp [hc]
        · rw [if_neg hc]; rcases h0' with rfl | rfl <;> simp [hc]
    cases t with
    | ambient sk =>
      have hA : applyTop (some (.ambient sk)) (p.elems.any is4rm) p.dims.nLayers T =
          some (T.set (p.dims.nLayers - 1) (topSinkType (.ambient sk) t1)) := by
        simp only [applyTop, hg1]
      rw [hA]
      simp only [Option.bind_some, Option.map_eq_none_iff]
      rw [hbot _ (by rcases h1' with rfl | rfl <;> simp [topSinkType])]
      simp
    | pluggable sp m =>
      cases hb : p.elems.any is4rm with
      | true =>
        have := h4.mp hb
        simp [applyTop, this]
      | false =>
        have hno : LType.ch4rm ∉ T := by intro hx; rw [h4.mpr hx] at hb; cases hb
        have hA : applyTop (some (.pluggable sp m)) false p.dims.nLayers T =
            some (T.set (p.dims.nLayers - 1) (topSinkType (.pluggable sp m) t1)) := by
          simp only [applyTop, hg1]
        rw [hA]
        simp only [Option.bind_some, Option.map_eq_none_iff]
        rw [hbot _ (by rcases h1' with rfl | rfl <;> simp [topSinkType])]
        simp [hno]

/-- In an accepted grid the sinks change the type of the topmost and of the bottommost layer, and of no other. -/
theorem C18_sinks_change_only_outermost_layers {d : Dims K} {decl : Option (Channel K)} (hd : DeclOk decl) {s : Option (Spreader K)}
    {rs : List (Raw K φ)} {p : Parsed K φ} (h : parseStack d decl s rs = some p) {top : Option (TopSink K)} {bottom : Option (Sink K)}
    {g : TGrid K} (hg : fillGrid p.dims.nLayers p.elems top bottom = some g) :
    g.types.length = p.dims.nLayers ∧ g.top = top ∧ g.bottom = bottom ∧ g.nLayers = p.dims.nLayers ∧ 0 < p.dims.nLayers ∧
    ∀ l t, (stackTypes decl rs)[l]? = some t →
      g.types[l]? = some (if l = 0 ∧ bottom.isSome then withBottom bottom t
        else if l = p.dims.nLayers - 1 then withTop top t else t) := by
  have hnone : ¬ (fillGrid p.dims.nLayers p.elems top bottom = none) := by rw [hg]; simp
  rw [C18_refused_iff hd h] at hnone
  obtain ⟨hn, -, -, ⟨g0, hg0, ht0, -, -⟩, -, -⟩ := C16_layers_match_file hd h
  obtain ⟨⟨t0, h0, h0'⟩, ⟨t1, h1, h1'⟩⟩ := stack_ends h
  have hT : p.elems.foldl writeTypes (List.replicate p.dims.nLayers LType.none) = stackTypes decl rs := by
    simp only [fillGrid, applyTop, applyBottom, Option.bind_some, Option.map_some, Option.some.injEq] at hg0
    rw [← ht0, ← hg0]
  unfold fillGrid at hg
  simp only [hT] at hg
  rw [← hn] at h1
  have hpos : 0 < p.dims.nLayers := by
    rw [hn]; exact (List.getElem?_eq_some_iff.mp h0).1
  have hg1 : (stackTypes decl rs).getD (p.dims.nLayers - 1) .none = t1 := by rw [List.getD_eq_getElem?_getD, h1]; rfl
  generalize stackTypes decl rs = T at *
  have hA : applyTop top (p.elems.any is4rm) p.dims.nLayers T = some (T.set (p.dims.nLayers - 1) (withTop top t1)) := by
    cases hta : applyTop top (p.elems.any is4rm) p.dims.nLayers T with
    | none => rw [hta] at hg; simp at hg
    | some ts =>
      cases top with
      | none =>
        simp only [applyTop] at hta
        simp only [withTop]
        obtain ⟨hl, he⟩ := List.getElem?_eq_some_iff.mp h1
        rw [← hta, ← he, List.set_getElem_self]
      | some t =>
        simp only [applyTop, hg1] at hta
        cases t <;> cases hany : p.elems.any is4rm <;> rw [hany] at hta <;> simp at hta <;> rw [← hta] <;>
          rcases h1' with rfl | rfl <;> simp [withTop, topSinkType]
  rw [hA] at hg
  simp only [Option.bind_some, Option.map_eq_some_iff] at hg
  obtain ⟨ts, hts, rfl⟩ := hg
  have hget0 : (T.set (p.dims.nLayers - 1) (withTop top t1))[0]? =
      some (if p.dims.nLayers = 1 then withTop top t1 else t0) := by
    rw [List.getElem?_set]
    by_cases hc : p.dims.nLayers = 1
    · rw [if_pos (by omega), if_pos hc, if_pos (by omega)]
    · rw [if_neg (by omega), if_neg hc, h0]
  have hB : ts = (T.set (p.dims.nLayers - 1) (withTop top t1)).set 0 (if bottom.isSome then withBottom bottom t0 else
      (if p.dims.nLayers = 1 then withTop top t1 else t0)) := by
    cases bottom with
    | none =>
      simp only [applyBottom, Option.some.injEq] at hts
      rw [← hts]
      obtain ⟨hl, he⟩ := List.getElem?_eq_some_iff.mp hget0
      simp only [Option.isSome_none, Bool.false_eq_true, if_false]
      rw [← he, List.set_getElem_self]
    | some b =>
      have hone : p.dims.nLayers = 1 → top = none := by
        intro hc
        cases top with
        | none => rfl
        | some t => exact absurd (Or.inl ⟨rfl, rfl, hc⟩) hnone
      have : (T.set (p.dims.nLayers - 1) (withTop top t1)).getD 0 .none = t0 := by
        rw [List.getD_eq_getElem?_getD, hget0]
        by_cases hc : p.dims.nLayers = 1
        · rw [if_pos hc, hone hc]
          have : t0 = t1 := by rw [hc] at h1; simpa using h0.symm.trans h1
          rw [this]; rfl
        · rw [if_neg hc]; rfl
      simp only [applyBottom, this] at hts
      rcases h0' with rfl | rfl <;> simp at hts <;> rw [← hts] <;> simp [withBottom]
  have hTlen : T.length = p.dims.nLayers := by rw [hn]
  refine ⟨by rw [hB]; simp [hTlen], rfl, rfl, rfl, hpos, ?_⟩
  intro l t hl
  have hll : l < T.length := (List.getElem?_eq_some_iff.mp hl).1
  simp only [hB, List.getElem?_set, List.length_set]
  by_cases c0 : l = 0
  · subst c0
    have ht : t = t0 := by rw [h0] at hl; simpa using hl.symm
    subst ht
    rw [if_pos rfl, if_pos hll]
    congr 1
    cases bottom with
    | none =>
      simp only [Option.isSome_none, Bool.false_eq_true, if_false, and_false]
      by_cases hc : p.dims.nLayers = 1
      · rw [if_pos hc, if_pos (by omega)]
        have : t = t1 := by rw [hc] at h1; simpa using h0.symm.trans h1
        rw [this]
      · rw [if_neg hc, if_neg (by omega)]
    | some b => simp
  · rw [if_neg (Ne.symm c0), if_neg (fun hx : l = 0 ∧ _ => c0 hx.1)]
    by_cases c1 : l = p.dims.nLayers - 1
    · subst c1
      have ht : t = t1 := by rw [h1] at hl; simpa using hl.symm
      rw [if_pos rfl, if_pos hll, if_pos rfl, ht]
    · rw [if_neg (Ne.symm c1), if_neg c1, hl]

/-! ## C38 -/

def RawBody.isDie : RawBody K φ → Bool
  | .die _ => true
  | _ => false

def RawBody.isChannel : RawBody K φ → Bool
  | .channel => true
  | _ => false

/-- What a well-formed `stack:` section is, except for consecutive channels. -/
structure WellFormed (decl : Option (Channel K)) (rs : List (Raw K φ)) : Prop where
  die : ∃ r ∈ rs, r.body.isDie = true
  top : ∀ r, rs.head? = some r → r.body.isChannel = false
  bottom : ∀ r, rs.getLast? = some r → r.body.isChannel = false
  declared : (∃ r ∈ rs, r.body.isChannel = true) → decl.isSome
  names : (rs.map (·.id)).Nodup

theorem resolve_kind {decl : Option (Channel K)} {r : Raw K φ} {e : SElem K φ} (h : resolve decl r = some e) :
    e.id = r.id ∧ isDie e = r.body.isDie ∧ isChannel e = r.body.isChannel ∧ (r.body.isChannel = true → decl.isSome) := by
  unfold resolve at h
  cases hb : r.body with
  | die dd => rw [hb] at h; simp at h; subst h; simp [isDie, isChannel, RawBody.isDie, RawBody.isChannel]
  | layer ly => rw [hb] at h; simp at h; subst h; simp [isDie, isChannel, RawBody.isDie, RawBody.isChannel]
  | channel =>
    rw [hb] at h
    cases hdecl : decl with
    | none => rw [hdecl] at h; simp at h
    | some ch => rw [hdecl] at h; simp at h; subst h; simp [isDie, isChannel, RawBody.isDie, RawBody.isChannel]

theorem forall₂_map_eq {α β γ : Type} {R : α → β → Prop} {l1 : List α} {l2 : List β} (h : List.Forall₂ R l1 l2)
    {f : α → γ} {g : β → γ} (hfg : ∀ a b, R a b → g b = f a) : l2.map g = l1.map f := by
  induction h with
  | nil => rfl
  | cons h1 h2 ih => simp [hfg _ _ h1, ih]

theorem resolve_total {decl : Option (Channel K)} {r : Raw K φ} (h : r.body.isChannel = true → decl.isSome) :
    ∃ e, resolve decl r = some e := by
  unfold resolve
  cases hb : r.body with
  | die dd => exact ⟨_, rfl⟩
  | layer ly => exact ⟨_, rfl⟩
  | channel =>
    rw [hb] at h
    obtain ⟨ch, hch⟩ := Option.isSome_iff_exists.mp (h rfl)
    exact ⟨_, by rw [hch]; rfl⟩

theorem foldlM_addElement_total {decl : Option (Channel K)} {rs : List (Raw K φ)} {acc : List (SElem K φ)}
    (hd : (∃ r ∈ rs, r.body.isChannel = true) → decl.isSome) (hn : (acc.map (·.id) ++ rs.map (·.id)).Nodup)
    (hh : ∃ a as, acc = a :: as ∧ isChannel a = false) : ∃ es, rs.foldlM (addElement decl) acc = some es := by
  induction rs generalizing acc with
  | nil => exact ⟨acc, rfl⟩
  | cons r rs ih =>
    obtain ⟨e, he⟩ := resolve_total (decl := decl) (r := r) fun hc => hd ⟨r, by simp, hc⟩
    obtain ⟨hid, -, -, -⟩ := resolve_kind he
    obtain ⟨a, as, rfl, ha⟩ := hh
    have hne : ¬ (((a :: as).any fun x => x.id = e.id) = true) := by
      rw [List.any_eq_true]
      rintro ⟨x, hx, hxe⟩
      rw [List.nodup_append] at hn
      refine hn.2.2 x.id (List.mem_map_of_mem hx) r.id (by simp) ?_
      rw [← hid]; simpa using hxe
    have h1 : addElement decl (a :: as) r = some ((a :: as) ++ [e]) := by
      unfold addElement
      rw [he]
      simp only [Option.bind_some]
      rw [if_neg hne, if_neg (by simp [ha])]
    have := ih (acc := (a :: as) ++ [e]) (fun ⟨x, hx, hc⟩ => hd ⟨x, by simp [hx], hc⟩)
      (by simpa [hid, List.append_assoc] using hn) ⟨a, as ++ [e], by simp, ha⟩
    rw [List.foldlM_cons, h1]
    simpa using this

/-- Exactly the well-formed `stack:` sections whose cells fit the solver's limit are accepted. The check of the source for
consecutive channels never rejects anything that is not rejected already: see `C38_consecutive_channels_violated`. -/
theorem C38_rejects_ill_formed_partial (d : Dims K) (decl : Option (Channel K)) (hd : DeclOk decl) (s : Option (Spreader K)) (rs : List (Raw K φ)) :
    (∃ p, parseStack d decl s rs = some p) ↔
      WellFormed decl rs ∧ (stackTypes decl rs).length * d.nRows * d.nCols + spreaderCells s ≤ 2147483647 := by
  constructor
  · rintro ⟨p, h⟩
    obtain ⟨es, n, hf, hn, hne, hdie, hlast, hhead, he, hdim, hcount, -⟩ := parseStack_spec h
    have hnl := (C16_layers_match_file hd h).1
    rw [hdim] at hnl
    simp only at hnl
    have hlen := hf.length_eq
    have hget : ∀ i (h1 : i < rs.length) (h2 : i < es.length), resolve decl rs[i] = some es[i] := fun i h1 h2 => by
      simpa using (List.forall₂_iff_get.mp hf).2 i h1 h2
    refine ⟨⟨?_, ?_, ?_, ?_, ?_⟩, ?_⟩
    · obtain ⟨e, hx, hde⟩ := hdie
      obtain ⟨r, hr, hre⟩ := mem_forall₂_right hf hx
      exact ⟨r, hr, by rw [← (resolve_kind hre).2.1]; exact hde⟩
    · intro r hx
      rw [List.head?_eq_getElem?] at hx hhead
      obtain ⟨h1, h2⟩ := List.getElem?_eq_some_iff.mp hx
      have h3 : 0 < es.length := by omega
      have := hget 0 h1 h3
      rw [h2] at this
      rw [← (resolve_kind this).2.2.1]
      exact hhead _ (List.getElem?_eq_getElem h3)
    · intro r hx
      rw [List.getLast?_eq_getElem?] at hx hlast
      obtain ⟨h1, h2⟩ := List.getElem?_eq_some_iff.mp hx
      have h3 : rs.length - 1 < es.length := by omega
      have := hget (rs.length - 1) h1 h3
      rw [h2] at this
      rw [← (resolve_kind this).2.2.1]
      exact hlast _ (by rw [← hlen]; exact List.getElem?_eq_getElem h3)
    · rintro ⟨r, hr, hc⟩
      obtain ⟨e, _, hre⟩ := mem_forall₂_right hf.flip hr
      exact (resolve_kind hre).2.2.2 hc
    · rw [← forall₂_map_eq hf (f := (·.id)) (g := (·.id)) fun a b h => (resolve_kind h).1]
      exact hn
    · rw [← hnl]
      unfold countCells at hcount
      simp only at hcount
      split at hcount
      · cases hcount
      · omega
  · rintro ⟨hw, hc⟩
    obtain ⟨r0, hr0, hdie⟩ := hw.die
    cases rs with
    | nil => cases hr0
    | cons r rs =>
      obtain ⟨e, he⟩ := resolve_total (decl := decl) (r := r) fun hx => hw.declared ⟨r, by simp, hx⟩
      have hk := resolve_kind he
      obtain ⟨es, hes⟩ := foldlM_addElement_total (decl := decl) (rs := rs) (acc := [e])
        (fun ⟨x, hx, h⟩ => hw.declared ⟨x, by simp [hx], h⟩)
        (by have := hw.names; simpa [hk.1] using this)
        ⟨e, [], rfl, by rw [hk.2.2.1]; exact hw.top r rfl⟩
      have hpe : parseElements decl (r :: rs) = some es := by
        simp only [parseElements, he, Option.bind_some, hes]
      obtain ⟨hf, -, -⟩ := parseElements_spec hpe
      have hlen := hf.length_eq
      have hget : ∀ i (h1 : i < (r :: rs).length) (h2 : i < es.length), resolve decl (r :: rs)[i] = some es[i] := fun i h1 h2 => by
        simpa using (List.forall₂_iff_get.mp hf).2 i h1 h2
      have a1 : (es.filter isDie).length ≠ 0 := by
        obtain ⟨e', hx, hre⟩ := mem_forall₂_right hf.flip hr0
        intro hz
        rw [List.length_eq_zero_iff, List.filter_eq_nil_iff] at hz
        apply hz e' hx
        rw [(resolve_kind hre).2.1]; exact hdie
      have a2 : ¬ ((es.getLast?.map isChannel).getD false = true) := by
        cases hl : es.getLast? with
        | none => simp
        | some e' =>
          rw [List.getLast?_eq_getElem?] at hl
          obtain ⟨h1, h2⟩ := List.getElem?_eq_some_iff.mp hl
          have h3 : es.length - 1 < (r :: rs).length := by omega
          have := hget _ h3 h1
          rw [h2] at this
          simp only [Option.map_some, Option.getD_some, (resolve_kind this).2.2.1]
          rw [hw.bottom _ (by rw [List.getLast?_eq_getElem?, hlen]; exact List.getElem?_eq_getElem h3)]
          simp
      have a3 : ¬ ((es.head?.map isChannel).getD false = true) := by
        cases hl : es.head? with
        | none => simp
        | some e' =>
          rw [List.head?_eq_getElem?] at hl
          obtain ⟨h1, h2⟩ := List.getElem?_eq_some_iff.mp hl
          have := hget 0 (by simp) h1
          rw [h2] at this
          simp only [Option.map_some, Option.getD_some, (resolve_kind this).2.2.1]
          have := hw.top r rfl
          simpa using this
      have ht : countLayers 0 es.reverse = (stackTypes decl (r :: rs)).length := by
        rw [countLayers_eq, Nat.zero_add, stackTypes]
        have hr := forall₂_reverse hf
        rw [flatMap_congr_forall₂ hr (f := specTypes decl) (g := fun e => blockTypes e.body)
          fun r e hre => (resolve_block hd hre).2.2.2.1]
        refine total_eq_length _ _ fun e hx => ?_
        obtain ⟨r, _, hre⟩ := mem_forall₂_right hr hx
        have := resolve_block hd hre
        rw [← this.2.2.2.1, this.2.2.2.2.2.2]
      unfold parseStack
      rw [hpe]
      simp only [Option.bind_some, ht]
      rw [if_neg a1, if_neg a2, if_neg a3]
      unfold countCells
      simp only
      rw [if_neg (by omega)]
      exact ⟨_, rfl⟩

/-! ## Examples -/

section Examples

def exMat : Material ℚ := ⟨150, 150, 150, 16/10⟩
def exLayer (h : ℚ) : Layer ℚ := ⟨h, exMat, []⟩
def exCoolant : Coolant ℚ := ⟨1, 2, 3, 4, 5, 1, 300⟩
def exChannel (m : ChModel) : Channel ℚ := ⟨m, 100, 50, 1/2, 4, exMat, exCoolant, fun x => x + 1, fun x => x + 1⟩
def exDie (f : String) : RawDie ℚ String := ⟨[exLayer 20], exLayer 5, [exLayer 30, exLayer 40], f⟩

/-- Two dies with a 2RM channel between them. -/
def exRaw : List (Raw ℚ String) :=
  [⟨"top", .die (exDie "a")⟩, ⟨"ch", .channel⟩, ⟨"bottom", .die (exDie "b")⟩]

/-- Two consecutive channels below a die. -/
def exTwoChannels : List (Raw ℚ String) :=
  [⟨"top", .die (exDie "a")⟩, ⟨"ch1", .channel⟩, ⟨"ch2", .channel⟩, ⟨"bottom", .die (exDie "b")⟩]

theorem exRaw_accepted : ∃ p, parseStack exDims (some (exChannel .mc2rm)) none exRaw = some p := by
  rw [C38_rejects_ill_formed_partial _ _ (by rintro ch h; simp only [Option.some.injEq] at h; subst h; simp [exChannel])]
  refine ⟨⟨⟨_, List.mem_cons_self, rfl⟩, ?_, ?_, by simp, by simp [exRaw]⟩, ?_⟩
  · intro r h; simp [exRaw] at h; subst h; rfl
  · intro r h; simp [exRaw] at h; subst h; rfl
  · simp [stackTypes, exRaw, specTypes, exDie, exChannel, exDims, spreaderCells]

/-- A stack with two consecutive channels is accepted, for every channel model. -/
theorem C38_consecutive_channels_violated (m : ChModel) (hm : m ≠ .none) :
    ∃ p, parseStack exDims (some (exChannel m)) none exTwoChannels = some p := by
  rw [C38_rejects_ill_formed_partial _ _ (by rintro ch h; simp only [Option.some.injEq] at h; subst h; simpa [exChannel])]
  refine ⟨⟨⟨_, List.mem_cons_self, rfl⟩, ?_, ?_, by simp, by simp [exTwoChannels]⟩, ?_⟩
  · intro r h; simp [exTwoChannels] at h; subst h; rfl
  · intro r h; simp [exTwoChannels] at h; subst h; rfl
  · cases m <;> simp [stackTypes, exTwoChannels, specTypes, exDie, exChannel, exDims, spreaderCells] at *

/-- The hypotheses of C16, C17 and C18 hold for `exRaw` with both sinks. -/
example : ∃ p g, parseStack exDims (some (exChannel .mc2rm)) none exRaw = some p ∧ p.dims.nLayers = 12 ∧
    fillGrid p.dims.nLayers p.elems (some (.ambient ⟨1, 300⟩)) (some ⟨2, 300⟩) = some g ∧
    typeAt g 0 = .solidPcb ∧ typeAt g 2 = .source ∧ typeAt g 6 = .ch2rm ∧ typeAt g 11 = .solidAmb := by
  obtain ⟨p, hp⟩ := exRaw_accepted
  have hd : DeclOk (some (exChannel .mc2rm)) := by rintro ch h; simp only [Option.some.injEq] at h; subst h; simp [exChannel]
  have hT : stackTypes (some (exChannel .mc2rm)) exRaw =
      [.solid, .solid, .source, .solid, .bottomWall, .vwallCh, .ch2rm, .topWall, .solid, .solid, .source, .solid] := by
    simp [stackTypes, exRaw, specTypes, exDie, exChannel]
  have hn := (C16_layers_match_file hd hp).1
  rw [hT] at hn
  simp only [List.length_cons, List.length_nil] at hn
  cases hg : fillGrid p.dims.nLayers p.elems (some (.ambient ⟨1, 300⟩)) (some ⟨2, 300⟩) with
  | none =>
    rw [C18_refused_iff hd hp] at hg
    simp [hn] at hg
  | some g =>
    refine ⟨p, g, hp, hn, hg, ?_⟩
    obtain ⟨-, -, -, -, -, hty⟩ := C18_sinks_change_only_outermost_layers hd hp hg
    rw [hT, hn] at hty
    have t0 := hty 0 .solid rfl
    have t2 := hty 2 .source rfl
    have t6 := hty 6 .ch2rm rfl
    have t11 := hty 11 .solid rfl
    simp [withTop, withBottom] at t0 t2 t6 t11
    simp [typeAt, List.getD_eq_getElem?_getD, t0, t2, t6, t11]

end Examples

end Verif.Stk
