import Verif.Model.Floorplan

/-! Model of `bison/layout_parser.y`: the layout of a layer, a list of materials with the rectangles they fill. -/

namespace Verif.Flp
open Verif.Dim Verif.TG

variable {K : Type} [Field K] [LinearOrder K]

/-- The double loop over the rectangles of one material: bison/layout_parser.y:337-365. `check_intersection` returns false when its
two arguments are the same object (sources/ic_element.c:184-186), so equal indices are skipped. -/
def selfIntersects (rects : List (Rect K)) : Bool :=
  (List.range rects.length).any fun i => (List.range rects.length).any fun j =>
    decide (i ≠ j) && match rects[i]?, rects[j]? with
      | some a, some b => checkIntersection a b
      | _, _ => false

/-- The loop over the rectangles of the materials already in the layout: bison/layout_parser.y:367-398. -/
def meets (rects : List (Rect K)) (before : List (String × Material K × List (Rect K))) : Bool :=
  rects.any fun a => before.any fun m => m.2.2.any fun b => checkIntersection a b

/-- Material of a given name: the local list first, then the one of the stack file: bison/layout_parser.y:297-320. -/
def findMaterial (loc glob : List (String × Material K)) (id : String) : Option (Material K) :=
  ((loc.find? fun m => m.1 == id).orElse fun _ => glob.find? fun m => m.1 == id).map (·.2)

/-- The rules `layout` and `layouts_list`: bison/layout_parser.y:245-402. An intersection or a rectangle outside the chip sets
`local_abort`, which makes the file be refused at the end (144-149): here it is refused at once. The unused alignment of the
rectangles on the grid is left out. -/
def addLayout (d : Dims K) (loc glob : List (String × Material K)) (acc : List (String × Material K × List (Rect K)))
    (raw : String × List (Rect K)) : Option (List (String × Material K × List (Rect K))) :=
  match findMaterial loc glob raw.1 with
  | none => none
  | some m =>
    if raw.2 = [] then none
    else if raw.2.any (checkLocation d) then none
    else if selfIntersects raw.2 || meets raw.2 acc then none
    else if acc.any fun x => x.1 == raw.1 then none
    else some (acc ++ [(raw.1, m, raw.2)])

/-- The rule `layout_file`: bison/layout_parser.y:137-151 (at least one material). -/
def parseLayout (d : Dims K) (loc glob : List (String × Material K)) (raws : List (String × List (Rect K))) :
    Option (List (String × Material K × List (Rect K))) :=
  if raws = [] then none else raws.foldlM (addLayout d loc glob) []

end Verif.Flp
