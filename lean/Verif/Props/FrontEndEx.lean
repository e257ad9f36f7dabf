import Verif.Props.FrontEndOrder
import Verif.Props.Writable

/-! **C67** Examples: the hypotheses of the theorems are met, and the description of a file with a channel, a layout, and shorthands. -/

namespace Verif.FE
open Verif.Gram Verif.Dim Verif.TG Verif.Stk

/-- Floorplans by the names of their elements. -/
def namesReader : Reader (List String) where
  read _ fs := some (fs.map (·.id))
  names l := l

def exFiles : Files where
  flp p := if p = "core.flp" then some [⟨"A", .one 0 0 500 500 none none, [1, 2]⟩, ⟨"B", .one 500 0 500 500 (some "SI") (some (2, 2)), [3]⟩] else none
  lay p := if p = "pcb.lay" then some ⟨[⟨"CU", .iso 400, 3⟩], [("CU", .one 0 0 500 500), ("SI", .many [⟨600, 0, 100, 100⟩, ⟨600, 200, 100, 100⟩])]⟩ else none

def exDoc : StackD :=
  { mats := [⟨"SI", .iso (13 / 100000), 1 / 10⟩, ⟨"BEOL", .aniso 1 2 3, 2⟩], top := some (.conv ⟨1, 300⟩), bottom := none,
    chan := some (.rm4 100 50 50 none (some 25) "SI" 42 (.one 3) 4 300), dims := ⟨1025, 2000, 100, 100, none⟩,
    layers := [⟨"PCB", 10, "BEOL", some "pcb.lay"⟩, ⟨"TIM", 7, "BEOL", none⟩],
    dies := [⟨"CORE", [.own 5 "SI"], .own 2 "SI", [.ref "TIM"]⟩, ⟨"MEM", [], .own 3 "BEOL", []⟩],
    elems := [.die "TOP" "CORE" "core.flp" none, .channel "CH", .layer "L" "PCB" (some (2, 3))],
    solver := ⟨some (1 / 50, 1 / 5), 300, none⟩,
    points := [.tcell "TOP" 1 2 "t.txt" .step, .tflpel "TOP" "B" "b.txt" .maximum .slot, .tcoolant "CH" "c.txt" .average .unsaid] }

/-- The same, in another order. -/
def exDoc' : StackD := { exDoc with mats := exDoc.mats.reverse, layers := exDoc.layers.reverse, dies := exDoc.dies.reverse }

theorem exDoc_accepted : (describe namesReader (fun _ x => x) exFiles exDoc).isSome = true := by decide +kernel
/-- What is built: the channel, its wall, the points. -/
example : (describe namesReader (fun _ x => x) exFiles exDoc).map (fun D => (D.chan.map fun c => (c.nChannels, c.coolant.flowRate, c.wallMat.kz),
    D.parsed.elems.map fun e => (e.id, e.offset), D.points.map (·.file), D.cores)) =
    some (some (10, 700000000000, 13 / 100000), [("L", 0), ("CH", 1), ("TOP", 2)], ["t.txt", "b.txt", "c.txt"], 1) := by decide +kernel
example : Reordered exDoc exDoc' :=
  ⟨(List.reverse_perm _).symm, (List.reverse_perm _).symm, (List.reverse_perm _).symm, rfl, rfl, rfl, rfl, rfl, rfl, rfl⟩
/-- A name declared twice, a reference to nothing, a die that is not one: refused. -/
example : describe namesReader (fun _ x => x) exFiles { exDoc with mats := exDoc.mats ++ [⟨"SI", .iso 1, 1⟩] } = none ∧
    describe namesReader (fun _ x => x) exFiles { exDoc with elems := [.die "TOP" "PCB" "core.flp" none] } = none ∧
    describe namesReader (fun _ x => x) exFiles { exDoc with points := [.tflp "L" "x" .average .step] } = none ∧
    describe namesReader (fun _ x => x) exFiles { exDoc with solver := ⟨some (1, 1 / 2), 300, none⟩ } = none := by
  refine ⟨?_, ?_, ?_, ?_⟩ <;> exact Option.isNone_iff_eq_none.mp (by decide +kernel)
/-- Unused declarations. -/
example : MoreDecls exDoc { exDoc with mats := ⟨"AIR", .iso 1, 1⟩ :: exDoc.mats } :=
  ⟨by simp, by simp, by simp, rfl, rfl, rfl, rfl, rfl, rfl, rfl⟩
example : FilesReordered exFiles exFiles := ⟨fun _ => rfl, fun p => by
  cases exFiles.lay p with
  | none => trivial
  | some f => exact ⟨List.Perm.refl _, rfl⟩⟩
/-- A renaming. -/
def exRen : Renaming where
  mat x := "m" ++ x
  layer x := "l" ++ x
  die x := x
  matInj a b h := by simpa using h
  layerInj a b h := by simpa using h
  dieInj a b h := h
example : (StackD.rename exRen exDoc).mats.map (·.id) = ["mSI", "mBEOL"] := by decide
example : exDoc.Ok := ⟨by decide, by decide, by decide⟩
/-- There are texts of the two documents, which have the same content. -/
example : ∃ t t', Nonempty (SameContent (fun _ => none) (fun _ => none) t t') := by
  have w : ∀ s : StackD, s.toks.all (Scan.check Scan.stackLex) = true → ∃ t, Scan.Written Scan.stackLex s.toks t := fun s h =>
    Scan.written_exists fun t ht => Scan.check_sound (List.all_eq_true.mp h t ht)
  obtain ⟨t, h⟩ := w exDoc (by decide +kernel)
  obtain ⟨t', h'⟩ := w exDoc' (by decide +kernel)
  exact ⟨t, t', ⟨exDoc, exDoc', ⟨by decide, by decide, by decide⟩, ⟨by decide, by decide, by decide⟩, h, h',
    ⟨((List.reverse_perm _).symm).map _, (List.reverse_perm _).symm, (List.reverse_perm _).symm, rfl, rfl, rfl, rfl, rfl, rfl, rfl⟩,
    ⟨fun _ => rfl, fun _ => trivial⟩⟩⟩

end Verif.FE
