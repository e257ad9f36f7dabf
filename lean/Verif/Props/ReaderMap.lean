import Verif.Props.Sensible
import Verif.Model.ProgramNu
import Verif.Props.GrammarFiles

/-! What does not depend on how floorplans are represented (C68): the description of a document whose floorplans are kept as written
determines the description with any other representation. Used to show that sensible files are accepted. -/

set_option linter.unusedSectionVars false
set_option linter.unusedSimpArgs false
set_option linter.unusedVariables false

namespace Verif.FE
open Verif.Gram Verif.Dim Verif.TG Verif.Stk

/-! ### Specification -/

/-- Floorplans as they are written. -/
def plainReader : Reader (List FlpD) where
  read _ fs := some fs
  names fs := fs.map (·.id)

variable {φ ψ : Type} (f : φ → ψ)

/-- The same description with the floorplans replaced. -/
def rawBodyMap : RawBody ℚ φ → RawBody ℚ ψ
  | .die d => .die ⟨d.above, d.source, d.below, f d.flp⟩
  | .layer l => .layer l
  | .channel => .channel
def rawMap (r : Raw ℚ φ) : Raw ℚ ψ := ⟨r.id, rawBodyMap f r.body⟩
def parsedMap (p : Parsed ℚ φ) : Parsed ℚ ψ := ⟨p.elems.map (elemMap f), p.dims, p.nConn⟩
def targetMap : Target φ → Target ψ
  | .cell e x y r c => .cell (elemMap f e) x y r c
  | .flp e x => .flp (elemMap f e) (f x)
  | .flpel e x i => .flpel (elemMap f e) (f x) i
  | .tmap e => .tmap (elemMap f e)
  | .t3d => .t3d
  | .pmap e => .pmap (elemMap f e)
  | .coolant e c => .coolant (elemMap f e) c
def pointMap (p : RPoint φ) : RPoint ψ := ⟨p.instant, p.quantity, p.file, targetMap f p.target⟩
def descMap (D : Desc φ) : Desc ψ :=
  { mats := D.mats, top := D.top, plugin := D.plugin, bottom := D.bottom, chan := D.chan, nonUniform := D.nonUniform, parsed := parsedMap f D.parsed,
    discr := D.discr, times := D.times, init := D.init, cores := D.cores, points := D.points.map (pointMap f) }

/-! ### Proofs -/

theorem resolve_map (decl : Option (Channel ℚ)) (r : Raw ℚ φ) : resolve decl (rawMap f r) = (resolve decl r).map (elemMap f) := by
  obtain ⟨id, b⟩ := r
  cases b with
  | die d => rfl
  | layer l => rfl
  | channel => cases decl <;> rfl

theorem isChannel_map (e : SElem ℚ φ) : isChannel (elemMap f e) = isChannel e := by
  obtain ⟨id, b, o⟩ := e; cases b <;> rfl
theorem isDie_map (e : SElem ℚ φ) : isDie (elemMap f e) = isDie e := by
  obtain ⟨id, b, o⟩ := e; cases b <;> rfl
theorem nLayers_map (e : SElem ℚ φ) : nLayersOf (elemMap f e) = nLayersOf e := by
  obtain ⟨id, b, o⟩ := e; cases b <;> rfl
theorem heights_map (e : SElem ℚ φ) : heightsOf (elemMap f e) = heightsOf e := by
  obtain ⟨id, b, o⟩ := e; cases b <;> rfl

theorem addElement_map (decl : Option (Channel ℚ)) (acc : List (SElem ℚ φ)) (r : Raw ℚ φ) :
    addElement decl (acc.map (elemMap f)) (rawMap f r) = (addElement decl acc r).map (List.map (elemMap f)) := by
  unfold addElement
  rw [resolve_map]
  cases resolve decl r with
  | none => rfl
  | some e =>
    simp only [Option.map_some, Option.bind_some]
    have h1 : ((acc.map (elemMap f)).any fun x => decide (x.id = (elemMap f e).id)) = acc.any fun x => decide (x.id = e.id) := by
      rw [List.any_map]; rfl
    have h2 : (((acc.map (elemMap f)).head?.map isChannel).getD false) = ((acc.head?.map isChannel).getD false) := by
      cases acc with
      | nil => rfl
      | cons a acc => simp [isChannel_map]
    rw [h1, h2, isChannel_map]
    split_ifs
    · rfl
    · rfl
    · simp

theorem foldlM_map (decl : Option (Channel ℚ)) (rs : List (Raw ℚ φ)) : ∀ acc : List (SElem ℚ φ),
    (rs.map (rawMap f)).foldlM (addElement decl) (acc.map (elemMap f)) = (rs.foldlM (addElement decl) acc).map (List.map (elemMap f)) := by
  induction rs with
  | nil => intro acc; rfl
  | cons r rs ih =>
    intro acc
    rw [List.map_cons, List.foldlM_cons, List.foldlM_cons, addElement_map]
    cases addElement decl acc r with
    | none => rfl
    | some b => exact ih b

theorem parseElements_map (decl : Option (Channel ℚ)) (rs : List (Raw ℚ φ)) :
    parseElements decl (rs.map (rawMap f)) = (parseElements decl rs).map (List.map (elemMap f)) := by
  cases rs with
  | nil => rfl
  | cons r rs =>
    rw [List.map_cons, parseElements, parseElements, resolve_map]
    cases resolve decl r with
    | none => rfl
    | some e => exact foldlM_map f decl rs [e]

theorem assignOffsets_map (es : List (SElem ℚ φ)) : ∀ n, assignOffsets n (es.map (elemMap f)) = (assignOffsets n es).map (elemMap f) := by
  induction es with
  | nil => intro n; rfl
  | cons e es ih =>
    intro n
    rw [List.map_cons, assignOffsets, assignOffsets, List.map_cons, ih, nLayers_map]
    rfl

theorem countLayers_map (es : List (SElem ℚ φ)) : ∀ n, countLayers n (es.map (elemMap f)) = countLayers n es := by
  induction es with
  | nil => intro n; rfl
  | cons e es ih => intro n; rw [List.map_cons, countLayers, countLayers, ih, nLayers_map]

theorem parseStack_map (d : Dims ℚ) (decl : Option (Channel ℚ)) (s : Option (Spreader ℚ)) (rs : List (Raw ℚ φ)) :
    parseStack d decl s (rs.map (rawMap f)) = (parseStack d decl s rs).map (parsedMap f) := by
  unfold parseStack
  rw [parseElements_map]
  cases parseElements decl rs with
  | none => rfl
  | some es =>
    simp only [Option.map_some, Option.bind_some]
    have h1 : ((es.map (elemMap f)).filter isDie).length = (es.filter isDie).length := by
      rw [List.filter_map, List.length_map]; congr 2; funext e; exact isDie_map f e
    have h2 : ((es.map (elemMap f)).filter isChannel).length = (es.filter isChannel).length := by
      rw [List.filter_map, List.length_map]; congr 2; funext e; exact isChannel_map f e
    have h3 : (((es.map (elemMap f)).getLast?.map isChannel).getD false) = ((es.getLast?.map isChannel).getD false) := by
      rw [List.getLast?_map, Option.map_map]; congr 2; funext e; exact isChannel_map f e
    have h4 : (((es.map (elemMap f)).head?.map isChannel).getD false) = ((es.head?.map isChannel).getD false) := by
      rw [List.head?_map, Option.map_map]; congr 2; funext e; exact isChannel_map f e
    have h5 : (es.map (elemMap f)).reverse.flatMap heightsOf = es.reverse.flatMap heightsOf := by
      rw [← List.map_reverse, List.flatMap_map]; congr 1; funext e; exact heights_map f e
    rw [h1, h2, h3, h4, h5, ← List.map_reverse, countLayers_map, assignOffsets_map]
    split_ifs
    · rfl
    · rfl
    · rfl
    · rw [Option.map_map]; rfl

theorem findElem_map (es : List (SElem ℚ φ)) (id : String) : findElem (es.map (elemMap f)) id = (findElem es id).map (elemMap f) := by
  unfold findElem
  rw [List.find?_map]
  rfl

theorem pointOf_map {R : Reader φ} {Q : Reader ψ} (hn : ∀ x, Q.names (f x) = R.names x) (d : Dims ℚ) (es : List (SElem ℚ φ)) (p : PointD) :
    pointOf Q d (es.map (elemMap f)) p = (pointOf R d es p).map (pointMap f) := by
  have hflp : ∀ e : SElem ℚ φ, flpOf (elemMap f e) = (flpOf e).map f := by
    rintro ⟨id, b, o⟩; cases b <;> rfl
  have hch : ∀ e : SElem ℚ φ, chanOf (elemMap f e) = chanOf e := by
    rintro ⟨id, b, o⟩; cases b <;> rfl
  cases p with
  | tcell el x y file w => simp only [pointOf, findElem_map]; cases findElem es el <;> rfl
  | tflp el file q w =>
    simp only [pointOf, findElem_map]
    cases findElem es el with
    | none => rfl
    | some e => simp only [Option.map_some, Option.bind_some, hflp]; cases flpOf e <;> rfl
  | tflpel el sub file q w =>
    simp only [pointOf, findElem_map]
    cases findElem es el with
    | none => rfl
    | some e =>
      simp only [Option.map_some, Option.bind_some, hflp]
      cases flpOf e with
      | none => rfl
      | some x =>
        simp only [Option.map_some, Option.bind_some, hn]
        cases findName (R.names x) sub <;> rfl
  | tmap el file w => simp only [pointOf, findElem_map]; cases findElem es el <;> rfl
  | t3d file w => rfl
  | pmap el file w => simp only [pointOf, findElem_map]; cases findElem es el <;> rfl
  | tcoolant el file q w =>
    simp only [pointOf, findElem_map]
    cases findElem es el with
    | none => rfl
    | some e => simp only [Option.map_some, Option.bind_some, hch]; cases chanOf e <;> rfl

theorem mapM_map_some {α β γ : Type} {g : α → Option β} {h : α → Option γ} {k : β → γ} {l : List α} (hk : ∀ x ∈ l, h x = (g x).map k) :
    l.mapM h = (l.mapM g).map (List.map k) := by
  induction l with
  | nil => rfl
  | cons a l ih =>
    rw [List.mapM_cons, List.mapM_cons, hk a (by simp), ih fun x hx => hk x (by simp [hx])]
    cases g a with
    | none => rfl
    | some b => cases l.mapM g <;> rfl

/-- A reader that reads all the floorplans of the document gives the same description, with its representation of the floorplans. -/
theorem describe_map {eff : Bool → ℚ → ℚ} {files : Files} {s : StackD} {Q : Reader ψ} {g : List FlpD → ψ} (hn : ∀ x, Q.names (g x) = x.map (·.id))
    (hr : ∀ d, dimsOf s.dims s.chan = some d → ∀ id ref p o fs, ElD.die id ref p o ∈ s.elems → files.flp p = some fs → Q.read d fs = some (g fs)) :
    describe Q eff files s = (describe plainReader eff files s).map (descMap g) := by
  unfold describe
  cases materials s.mats with
  | none => rfl
  | some mats =>
  simp only [Option.bind_some]
  cases hd : dimsOf s.dims s.chan with
  | none => rfl
  | some d =>
  simp only [Option.bind_some]
  cases channelOpt eff mats d s.chan with
  | none => rfl
  | some chan =>
  simp only [Option.bind_some]
  cases topOf mats d s.top with
  | none => rfl
  | some top =>
  simp only [Option.bind_some]
  cases declare (layerOf files mats d) s.layers with
  | none => rfl
  | some layers =>
  simp only [Option.bind_some]
  cases declare (dieOf mats layers) s.dies with
  | none => rfl
  | some dies =>
  simp only [Option.bind_some]
  have he : ∀ x ∈ s.elems, elemOf Q files d layers dies x = (elemOf plainReader files d layers dies x).map (rawMap g) := by
    intro x hx
    cases x with
    | layer id ref o => simp only [elemOf]; cases lookup layers ref <;> rfl
    | channel id => rfl
    | die id ref p o =>
      simp only [elemOf]
      cases lookup dies ref with
      | none => rfl
      | some y =>
        simp only [Option.bind_some]
        cases hf : files.flp p with
        | none => rfl
        | some fs =>
          simp only [Option.bind_some]
          rw [hr d hd id ref p o fs hx hf]
          rfl
  rw [mapM_map_some he]
  cases s.elems.mapM (elemOf plainReader files d layers dies) with
  | none => rfl
  | some raws =>
  simp only [Option.bind_some, Option.map_some]
  rw [parseStack_map]
  cases parseStack d chan (sprOf top) raws with
  | none => rfl
  | some p =>
  simp only [Option.bind_some, Option.map_some]
  split_ifs with hs
  · have e1 : (parsedMap g p).dims = p.dims := rfl
    have e2 : (parsedMap g p).elems.reverse = p.elems.reverse.map (elemMap g) := by
      show (p.elems.map (elemMap g)).reverse = _
      rw [List.map_reverse]
    rw [e1, e2, mapM_map_some (fun x _ => pointOf_map (R := plainReader) g hn p.dims p.elems.reverse x)]
    cases s.points.mapM (pointOf plainReader p.dims p.elems.reverse) <;> rfl
  · rfl

/-- The grid does not depend on the floorplans. -/
theorem fillGrid_map (n : Nat) (es : List (SElem ℚ φ)) (top : Option (TopSink ℚ)) (bottom : Option (Sink ℚ)) :
    fillGrid n (es.map (elemMap f)) top bottom = fillGrid n es top bottom := by
  have h1 : ∀ (t : List LType) (e : SElem ℚ φ), writeTypes t (elemMap f e) = writeTypes t e := by
    rintro t ⟨id, b, o⟩; cases b <;> rfl
  have h2 : ∀ (t : List (Layer ℚ)) (e : SElem ℚ φ), writeLayers t (elemMap f e) = writeLayers t e := by
    rintro t ⟨id, b, o⟩; cases b <;> rfl
  have h3 : ∀ (t : Option (Channel ℚ)) (e : SElem ℚ φ), writeChannel t (elemMap f e) = writeChannel t e := by
    rintro t ⟨id, b, o⟩; cases b <;> rfl
  have h4 : ∀ e : SElem ℚ φ, is4rm (elemMap f e) = is4rm e := by
    rintro ⟨id, b, o⟩; cases b <;> rfl
  unfold fillGrid
  simp only [List.foldl_map, h1, h2, h3, List.any_map, Function.comp_def, h4]

end Verif.FE
