import Verif.Props.NonUniformChannelTile
import Verif.Lemmas.NuLink

set_option linter.unusedSectionVars false
set_option linter.unusedSimpArgs false
set_option linter.unusedVariables false

/-! # C58: the conductances of a non-uniform grid with channels -/

namespace Verif.NU
open Verif.Dim Verif.TG Verif.Stk Verif.SM

variable {K : Type} [Field K] [LinearOrder K] [IsStrictOrderedRing K]
variable {d0 : Dims K} {decl : Option (Channel K)} {rs : List (Raw K (List (FEl K)))} {ns : List (NElem K)} {G : Grid K} {a : Ana K} {m : Csc K}

/-! ## Specification -/

/-- Both coefficients of a pair of cells: symmetric, minus the conductance. -/
def Conducts (m : Csc K) (i j : Nat) (g : K) : Prop := m.entry i j = - g ∧ m.entry j i = - g

/-- Conductance from the node of a solid cell to the part `A` of its upper or lower face. -/
def toFace (G : Grid K) (c : Cell K) (A : K) : K := vertical G c * A / depth G c

/-- Area of the cells of a channel seen from above. -/
def chanArea (G : Grid K) (c : Nat) : K := cellLength G.d c * (G.d.chipWidth / (G.d.nRows : K))

/-- Conductance from the node of a wall of a channel to the part `A` of its upper or lower face. -/
def wallFace (ch : Channel K) (A : K) : K := ch.wallMat.kz * A / (ch.height / 2)

/-- Heat exchange between the coolant and the part `A` of the surface over it (under it). -/
def filmUp (ch : Channel K) (A : K) : K :=
  match ch.model with
  | .pfInline => ch.effInline ch.coolant.darcy * A
  | .pfStag => ch.effStag ch.coolant.darcy * A
  | _ => ch.coolant.htcTop * A
def filmDown (ch : Channel K) (A : K) : K :=
  match ch.model with
  | .pfInline => ch.effInline ch.coolant.darcy * A
  | .pfStag => ch.effStag ch.coolant.darcy * A
  | _ => ch.coolant.htcBottom * A

/-! ## Proofs -/

theorem Conducts.symm {i j : Nat} {g : K} (h : Conducts m i j g) : Conducts m j i g := ⟨h.2, h.1⟩

section
variable (hf : FromStack d0 decl rs ns G)
include hf

/-- The type of a solid layer of a stack with channels. -/
theorem solid_type {l : Nat} (hl : l < G.d.nLayers) (hno : ∀ n ∈ ns, ∀ ch, n.elem.body = .channel ch → ¬ (n.elem.offset ≤ l ∧ l < n.elem.offset + chLayers ch)) :
    (∃ t : LType, (t = .solid ∨ t = .source) ∧
      typeAt G.g l = (if l = 0 ∧ G.g.bottom.isSome then withBottom G.g.bottom t else if l = G.d.nLayers - 1 then withTop G.g.top t else t)) ∧
    solidish (typeAt G.g l) = true := by
  obtain ⟨n, hn, k, hk, rfl⟩ := hf.elemAt hl
  have hc : isChannel n.elem = false := by
    unfold isChannel
    cases hb : n.elem.body with
    | die b => rfl
    | layer b => rfl
    | channel ch => unfold nLayersOf at hk; rw [hb] at hk; exact absurd ⟨by omega, Nat.add_lt_add_left hk _⟩ (hno n hn ch hb)
  refine ⟨?_, hf.solidAt hn hc hk⟩
  obtain ⟨p, hb, he, hd, -⟩ := hf.spec
  obtain ⟨-, -, -, -, -, hty⟩ := C18_sinks_change_only_outermost_layers hb.ok hb.parse hb.fill
  have hlen : k < (blockTypes n.elem.body).length := by
    unfold nLayersOf at hk
    unfold isChannel at hc
    cases hbd : n.elem.body <;> rw [hbd] at hc hk <;> simp [blockTypes] at hc hk ⊢ <;> omega
  have hget := List.getElem?_eq_getElem hlen
  have hs : (blockTypes n.elem.body)[k] = .solid ∨ (blockTypes n.elem.body)[k] = .source := by
    have := List.getElem_mem hlen
    generalize (blockTypes n.elem.body)[k] = t at this
    unfold isChannel at hc
    cases hbd : n.elem.body with
    | die b =>
      rw [hbd] at this
      simp only [blockTypes] at this
      rcases List.mem_or_eq_of_mem_set this with h | h
      · exact Or.inl (List.mem_replicate.mp h).2
      · exact Or.inr h
    | layer ly => rw [hbd] at this; simp only [blockTypes, List.mem_singleton] at this; exact Or.inl this
    | channel ch => rw [hbd] at hc; cases hc
  exact ⟨_, hs, by rw [typeAt_of_get (hty _ _ (hf.typesAt hn hget)), hd]⟩

/-- Half conductances of a solid cell. -/
theorem solid_halves (ph : PhysicalNU G) {i : Nat} (hi : i < G.cells.length) (hc : ¬ InChannel ns G.cells[i]) :
    (G.cells[i].layer < G.d.nLayers → ∀ v note : K,
      gx G.g G.d v G.cells[i] = (ownMat G G.cells[i]).kx * (v * height G.d G.cells[i].layer) / (G.cells[i].length / 2) ∧
      gy G.g G.d v G.cells[i] note = (ownMat G G.cells[i]).ky * (v * height G.d G.cells[i].layer) / (G.cells[i].width / 2)) ∧
    ((1 < G.d.nLayers ∨ ∃ s m, G.g.top = some (.pluggable s m)) → ∀ v up, gz G.g G.d v G.cells[i] up = toFace G G.cells[i] v) ∧
    (∀ v, 0 < v → 0 < toFace G G.cells[i] v) ∧ G.cells[i].chan = false ∧ (G.cells[i].layer < G.d.nLayers → G.ty G.cells[i].layer = 0) := by
  have hmem := List.getElem_mem hi
  obtain ⟨lc, pi0, pi1, pi2, pi3, -, pi4⟩ := hf.pos_layer hi
  have hno : ∀ n ∈ ns, ∀ ch, n.elem.body = .channel ch → ¬ (n.elem.offset ≤ G.cells[i].layer ∧ G.cells[i].layer < n.elem.offset + chLayers ch) :=
    fun n hn ch hb h => hc ⟨n, hn, ch, hb, h⟩
  have hpos : 0 < depth G G.cells[i] ∧ 0 < vertical G G.cells[i] := by
    unfold depth vertical
    by_cases hl : G.cells[i].layer < G.d.nLayers
    · rw [if_pos hl, if_pos hl]
      have := heightAt_pos hf.wf ph.hts hl
      obtain ⟨k1, k2, k3, k4⟩ := ph.mat _ hmem hl
      refine ⟨?_, k3⟩
      split_ifs <;> positivity
    · obtain ⟨-, s, mm, htop⟩ := pi4.resolve_left hl
      obtain ⟨h1, h2, h3, k1, k2, k3, k4⟩ := ph.spr s mm htop
      rw [if_neg hl, if_neg hl]
      unfold sprTerm
      rw [htop]
      exact ⟨by positivity, k3⟩
  refine ⟨fun hl v note => gx_solid hf hl (solid_type hf hl hno).2 v note, fun hz v up => ?_, fun v hv => ?_, ?_, fun hl => ?_⟩
  · by_cases hl : G.cells[i].layer < G.d.nLayers
    · exact gz_solid hf hl (solid_type hf hl hno).1 hz v up
    · obtain ⟨-, s, mm, htop⟩ := pi4.resolve_left hl
      unfold gz toFace vertical depth
      rw [if_pos (by omega), if_neg hl, if_neg hl]
      unfold sprTerm
      rw [htop]
  · unfold toFace; exact div_pos (mul_pos hpos.2 hv) hpos.1
  · by_contra h
    obtain ⟨n, hn, ch, hb, k, r, c, hk, hr, hcc, e, -⟩ := coolant_cell hf hi (by simpa using h)
    have := chan_get hf hn hb hk hr hcc
    rw [← e, List.getElem?_eq_getElem hi, Option.some.injEq] at this
    refine hc ⟨n, hn, ch, hb, ?_, ?_⟩ <;> rw [this] <;> simp only [chanCell] <;> omega
  · obtain ⟨n, hn, k, hk, e⟩ := hf.elemAt hl
    rw [e, ty_elem hf hn hk]
    cases hb : n.elem.body with
    | die b => rfl
    | layer b => rfl
    | channel ch => unfold nLayersOf at hk; rw [hb] at hk; exact absurd ⟨by omega, by rw [e]; exact Nat.add_lt_add_left hk _⟩ (hno n hn ch hb)

/-- Vertical half conductance of a cell of a channel. -/
theorem gz_chan {n : NElem K} (hn : n ∈ ns) {ch : Channel K} (hb : n.elem.body = .channel ch) {k r c : Nat} (hk : k < chLayers ch)
    (hc : c < G.d.nCols) (v : K) (up : Bool) :
    (ch.model = .mc4rm → WetCol G ch c → gz G.g G.d v (chanCell G.d ch.model n.elem.offset k r c) up = if up then filmUp ch v else filmDown ch v) ∧
    (ch.model = .mc4rm → ¬ WetCol G ch c → gz G.g G.d v (chanCell G.d ch.model n.elem.offset k r c) up = wallFace ch v) ∧
    (ch.model ≠ .mc4rm → (k = 0 ∨ k = 3) → gz G.g G.d v (chanCell G.d ch.model n.elem.offset k r c) up = 0) ∧
    (ch.model ≠ .mc4rm → k = 1 → gz G.g G.d v (chanCell G.d ch.model n.elem.offset k r c) up = (1 - ch.porosity) * wallFace ch v) ∧
    (ch.model ≠ .mc4rm → k = 2 → gz G.g G.d v (chanCell G.d ch.model n.elem.offset k r c) up = if up then filmUp ch v else filmDown ch v) := by
  obtain ⟨h1, h2, -, h4, h5, -⟩ := hf.channel hn hb
  have e1 : (chanCell G.d ch.model n.elem.offset k r c).layer = n.elem.offset + k := rfl
  have hfl : (chanCell G.d ch.model n.elem.offset k r c).chan = chanFlag G.d ch.model k c := rfl
  have hw := wet_flag (G := G) hk h2 hc
  have hcap : ∀ l : Nat, layerAt G.g l = wallLayer ch → condZ G.g G.d l 0 0 = ch.wallMat.kz := by
    intro l h; unfold condZ; rw [h]; rfl
  have key : ∀ t, (chTypes ch.model)[k]? = some t → typeAt G.g (n.elem.offset + k) = t ∧ condZ G.g G.d (n.elem.offset + k) 0 0 = ch.wallMat.kz ∧
      height G.d (n.elem.offset + k) = ch.height := fun t ht => ⟨(h5 k t ht).1, hcap _ (h5 k t ht).2.1, (h5 k t ht).2.2⟩
  unfold gz
  rw [e1, hfl, if_neg (by omega)]
  simp only [chan, h1, Option.map_some, Option.getD_some]
  revert key
  generalize typeAt G.g (n.elem.offset + k) = ty
  generalize condZ G.g G.d (n.elem.offset + k) 0 0 = kz
  generalize height G.d (n.elem.offset + k) = hh
  intro key
  unfold filmUp filmDown wallFace
  refine ⟨?_, ?_, ?_, ?_, ?_⟩
  · intro hm hwet
    have hk0 : k = 0 := by simpa [chLayers, hm] using hk
    subst hk0
    have hff : chanFlag G.d ch.model 0 c = true := hw.mpr ⟨by simp [coolantPos, hm], hwet⟩
    rw [hff]
    obtain ⟨rfl, rfl, rfl⟩ := key .ch4rm (by rw [hm]; rfl)
    simp only [hm, if_true]
  · intro hm hwet
    have hk0 : k = 0 := by simpa [chLayers, hm] using hk
    subst hk0
    have hff : chanFlag G.d ch.model 0 c = false := by
      have := hw.not.mpr fun h => hwet h.2
      simpa using this
    rw [hff]
    obtain ⟨rfl, rfl, rfl⟩ := key .ch4rm (by rw [hm]; rfl)
    simp
  · rintro hm (rfl | rfl)
    · cases hmm : ch.model <;> simp only [hmm] at key hm h2
      · exact absurd rfl h2
      · exact absurd rfl hm
      all_goals obtain ⟨rfl, -, -⟩ := key .bottomWall rfl; rfl
    · cases hmm : ch.model <;> simp only [hmm] at key hm h2
      · exact absurd rfl h2
      · exact absurd rfl hm
      all_goals obtain ⟨rfl, -, -⟩ := key .topWall rfl; rfl
  · rintro hm rfl
    cases hmm : ch.model <;> simp only [hmm] at key hm h2
    · exact absurd rfl h2
    · exact absurd rfl hm
    · obtain ⟨rfl, rfl, rfl⟩ := key .vwallCh rfl; simp only; ring
    all_goals obtain ⟨rfl, rfl, rfl⟩ := key .vwallPf rfl; simp only; ring
  · rintro hm rfl
    cases hmm : ch.model <;> simp only [hmm] at key hm h2
    · exact absurd rfl h2
    · exact absurd rfl hm
    · obtain ⟨rfl, rfl, rfl⟩ := key .ch2rm rfl; simp only
    · obtain ⟨rfl, rfl, rfl⟩ := key .pfInline rfl; simp
    · obtain ⟨rfl, rfl, rfl⟩ := key .pfStag rfl; simp

/-- Cells of a lower layer come first. -/
theorem before_of_layer {i j : Nat} (hi : i < G.cells.length) (hj : j < G.cells.length) (h : G.cells[i].layer < G.cells[j].layer) : i < j := by
  obtain ⟨lc, -, pi1, pi2, pi3, -, -⟩ := hf.pos_layer hi
  obtain ⟨lc', -, pj1, -, -, -, -⟩ := hf.pos_layer hj
  have := start_mono G.ls (show G.cells[i].layer + 1 ≤ G.cells[j].layer by omega)
  omega

end

section
variable (hf : FromStack d0 decl rs ns G) (ph : PhysicalNU G) (hsh : Sharp G)
include hf ph hsh

/-- Coefficients of two cells one over the other, from their half conductances. -/
theorem over_conducts {rnd : K → K} (hm : Assembled rnd G a m) {i j : Nat} (hi : i < G.cells.length) (hj : j < G.cells.length)
    (hl : Facing ns G.cells[i].layer G.cells[j].layer) (hO : Overlap G.cells[i] G.cells[j]) {g1 g2 : K}
    (h1 : gz G.g G.d (commonX G.cells[i] G.cells[j] * commonY G.cells[i] G.cells[j]) G.cells[j] false = g1)
    (h2 : gz G.g G.d (commonX G.cells[i] G.cells[j] * commonY G.cells[i] G.cells[j]) G.cells[i] true = g2) :
    (g1 = 0 → Conducts m i j g2) ∧ (g2 = 0 → Conducts m i j g1) ∧ (0 < g1 → 0 < g2 → Conducts m i j (series g2 g1)) := by
  have hlt : G.cells[i].layer < G.cells[j].layer := by rcases hl with ⟨h, -⟩ | ⟨o, -, h⟩ <;> omega
  have h := over hf ph hsh hm (before_of_layer hf hi hj hlt) hj hi hl hO
  simp only at h
  rw [h1, h2] at h
  obtain ⟨e1, e2⟩ := h
  refine ⟨fun hz => ?_, fun hz => ?_, fun p1 p2 => ?_⟩
  · rw [if_pos hz] at e1 e2; exact ⟨e2, e1⟩
  · have : (if g1 = 0 then - g2 else if g2 = 0 then - g1 else - par g1 g2) = - g1 := by
      by_cases h0 : g1 = 0
      · rw [if_pos h0, h0, hz]
      · rw [if_neg h0, if_pos hz]
    rw [this] at e1 e2; exact ⟨e2, e1⟩
  · rw [if_neg (ne_of_gt p1), if_neg (ne_of_gt p2), par_eq_series p1 p2, series_comm] at e1 e2
    exact ⟨e2, e1⟩

/-- **C58 (solid pairs)** In a stack with channels, the coefficient of two cells outside the channels is minus the conductance given by
their geometry and materials, as without channels (C52, with the same two exceptions). -/
theorem C58_solid_pairs_partial {rnd : K → K} (hm : Assembled rnd G a m) {i j : Nat} (hij : i ≠ j) (hi : i < G.cells.length) (hj : j < G.cells.length)
    (hci : ¬ InChannel ns G.cells[i]) (hcj : ¬ InChannel ns G.cells[j])
    (hlat : G.cells[i].layer = G.cells[j].layer → G.cells[i].layer < G.d.nLayers ∧ ¬ NestedSide G.cells[i] G.cells[j]) :
    Conducts m i j (link G G.cells[i] G.cells[j]) := by
  have main : ∀ {i j : Nat} (hlt : i < j) (hi : i < G.cells.length) (hj : j < G.cells.length) (hci : ¬ InChannel ns G.cells[i])
      (hcj : ¬ InChannel ns G.cells[j])
      (hlat : G.cells[i].layer = G.cells[j].layer → G.cells[i].layer < G.d.nLayers ∧ ¬ NestedSide G.cells[i] G.cells[j]),
      Conducts m i j (link G G.cells[i] G.cells[j]) := by
    intro i j hlt hi hj hci hcj hlat
    obtain ⟨lat_i, ver_i, pos_i, ch_i, ty_i⟩ := solid_halves hf ph hi hci
    obtain ⟨lat_j, ver_j, pos_j, ch_j, ty_j⟩ := solid_halves hf ph hj hcj
    have hsi : Solid G.cells[i] := ph.cell _ (List.getElem_mem hi)
    have hsj : Solid G.cells[j] := ph.cell _ (List.getElem_mem hj)
    obtain ⟨ax, ay⟩ := solid_lt hsi
    obtain ⟨bx, by'⟩ := solid_lt hsj
    have half : ∀ {c : Cell K}, c ∈ G.cells → c.layer < G.d.nLayers → ∀ {v : K}, 0 < v →
        0 < (ownMat G c).kx * (v * height G.d c.layer) / (c.length / 2) ∧ 0 < (ownMat G c).ky * (v * height G.d c.layer) / (c.width / 2) := by
      intro c hc hl v hv
      obtain ⟨h1, h2⟩ := ph.cell c hc
      obtain ⟨k1, k2, k3, k4⟩ := ph.mat c hc hl
      have := heightAt_pos hf.wf ph.hts hl
      exact ⟨by positivity, by positivity⟩
    by_cases hsame : G.cells[i].layer = G.cells[j].layer
    · obtain ⟨hli, hnest⟩ := hlat hsame
      have hlj : G.cells[j].layer < G.d.nLayers := by omega
      have hty := ty_i hli
      unfold link
      rw [if_pos hsame]
      by_cases hX : TouchX G.cells[i] G.cells[j]
      · rw [if_pos hX]
        obtain ⟨e1, e2⟩ := side_x hf ph hsh hm hlt hj hi hsame hX (by omega)
        have hpos := (touch_pos hsi hsj).1 hX
        rw [(lat_i hli _ 0).1, (lat_j hlj _ 0).1, par_eq_series (half (List.getElem_mem hj) hlj hpos).1 (half (List.getElem_mem hi) hli hpos).1, series_comm] at e1 e2
        have hv := (shortest_overlap hX.2 ay by').1 fun q => hnest (Or.inl ⟨hX, q⟩)
        rw [hv] at e1 e2
        exact ⟨e2, e1⟩
      · rw [if_neg hX]
        by_cases hY : TouchY G.cells[i] G.cells[j]
        · rw [if_pos hY]
          obtain ⟨e1, e2⟩ := side_y hf ph hsh hm hlt hj hi hsame hX hY (by omega) ch_i
          have hpos := (touch_pos hsi hsj).2 hY
          rw [(lat_i hli _ _).2, (lat_j hlj _ _).2, par_eq_series (half (List.getElem_mem hj) hlj hpos).2 (half (List.getElem_mem hi) hli hpos).2, series_comm] at e1 e2
          have hv := (shortest_overlap hY.2 ax bx).1 fun q => hnest (Or.inr ⟨hY, q⟩)
          rw [hv] at e1 e2
          exact ⟨e2, e1⟩
        · rw [if_neg hY]
          obtain ⟨e1, e2⟩ := apart hf ph hsh hm hlt hj hi (fun _ => ⟨fun h => absurd h hX, fun _ h => absurd h hY⟩)
            (fun h => by rcases h with ⟨h, -⟩ | ⟨o, -, h⟩ <;> omega)
          exact ⟨by rw [e2, neg_zero], by rw [e1, neg_zero]⟩
    · have hle : G.cells[i].layer < G.cells[j].layer := by
        by_contra hh
        have := before_of_layer hf hj hi (by omega)
        omega
      unfold link
      rw [if_neg hsame]
      have hface : Facing ns G.cells[i].layer G.cells[j].layer ↔ G.cells[i].layer + 1 = G.cells[j].layer := by
        constructor
        · rintro (⟨h, -⟩ | ⟨o, hT, h⟩)
          · exact h
          · exfalso
            obtain ⟨n, hn, ch, hb, hmod, rfl⟩ := hT
            have : chLayers ch = 4 := by simp [chLayers, hmod]
            exact hci ⟨n, hn, ch, hb, by omega, by omega⟩
        · intro h
          refine Or.inl ⟨h, ?_⟩
          rintro ⟨o, ⟨n, hn, ch, hb, hmod, rfl⟩, e⟩
          have : chLayers ch = 4 := by simp [chLayers, hmod]
          exact hci ⟨n, hn, ch, hb, by omega, by omega⟩
      by_cases hadj : G.cells[i].layer + 1 = G.cells[j].layer
      · rw [if_pos (Or.inl hadj)]
        by_cases hO : Overlap G.cells[i] G.cells[j]
        · rw [if_pos hO]
          have hz : 1 < G.d.nLayers ∨ ∃ s m, G.g.top = some (.pluggable s m) := by
            obtain ⟨-, -, -, -, -, -, pj⟩ := hf.pos_layer hj
            rcases pj with h | ⟨-, h⟩
            · left; omega
            · exact Or.inr h
          have hv : 0 < commonX G.cells[i] G.cells[j] * commonY G.cells[i] G.cells[j] := mul_pos hO.1 hO.2
          have := (over_conducts hf ph hsh hm hi hj (hface.mpr hadj) hO (ver_j hz _ _) (ver_i hz _ _)).2.2 (pos_j _ hv) (pos_i _ hv)
          exact this
        · rw [if_neg hO]
          obtain ⟨e1, e2⟩ := apart hf ph hsh hm hlt hj hi (fun h => absurd h hsame) (fun _ => hO)
          exact ⟨by rw [e2, neg_zero], by rw [e1, neg_zero]⟩
      · rw [if_neg (by omega)]
        obtain ⟨e1, e2⟩ := apart hf ph hsh hm hlt hj hi (fun h => absurd h hsame) (fun h => absurd (hface.mp h) hadj)
        exact ⟨by rw [e2, neg_zero], by rw [e1, neg_zero]⟩
  rcases Nat.lt_or_gt_of_ne hij with h | h
  · exact main h hi hj hci hcj hlat
  · rw [link_comm]
    exact (main h hj hi hcj hci fun e => ⟨by rw [e]; exact (hlat e.symm).1, fun q => (hlat e.symm).2 ((nestedSide_comm _ _).mp q)⟩).symm

end

end Verif.NU
