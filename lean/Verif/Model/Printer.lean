import Verif.Model.PowersQueue
import Verif.Model.Grammar
import Mathlib.Data.Int.Log
import Mathlib.Data.Rat.Floor

/-! Model of the functions that write input files: `generate_floorplan_file` and what it calls, and the beginning of
`generate_stack_description_file`. The text is a list of characters. Numbers are rationals; `printf` rounds to the nearest decimal of the
asked length, to the even one if there are two (glibc in the default rounding mode). -/

namespace Verif.Print
open Verif.PowersQueue Verif.TG

/-! ### `printf` -/

/-- The character of a digit: C11 7.21.6.1. -/
def digit (n : Nat) : Char := Char.ofNat (48 + n % 10)

/-- A natural number in decimal, as `printf` writes the part before the point: C11 7.21.6.1. -/
def decimal (n : Nat) : List Char := if n < 10 then [digit n] else decimal (n / 10) ++ [digit n]
termination_by n
decreasing_by omega

/-- A natural number in exactly `k` digits, as `printf` writes the part after the point: C11 7.21.6.1. -/
def padded : Nat → Nat → List Char
  | 0, _ => []
  | k + 1, n => padded k (n / 10) ++ [digit n]

/-- Rounding to the nearest integer, ties to even: glibc stdio-common/printf_fp.c in the default rounding mode. For a value that is not
negative. -/
def toNearest (q : ℚ) : Nat :=
  let f := ⌊q⌋₊
  if q - f < 1 / 2 then f else if 1 / 2 < q - f then f + 1 else if f % 2 = 0 then f else f + 1

/-- `printf ("%.nf", q)`, `n ≥ 1`: C11 7.21.6.1. -/
def fixed (n : Nat) (q : ℚ) : List Char :=
  let m := toNearest (|q| * 10 ^ n)
  (if q < 0 then ['-'] else []) ++ (decimal (m / 10 ^ n) ++ '.' :: padded n (m % 10 ^ n))

/-- The digits and the exponent of `%.ne`: one digit before the point, which is 0 only for zero; rounding may carry into it: C11 7.21.6.1. -/
def mantissa (n : Nat) (q : ℚ) : Nat × ℤ :=
  if q = 0 then (0, 0)
  else
    let e := Int.log 10 |q|
    let m := toNearest (|q| / (10 : ℚ) ^ (e - n))
    if m = 10 ^ (n + 1) then (10 ^ n, e + 1) else (m, e)

/-- `printf ("%.ne", q)`, `n ≥ 1`: the exponent has a sign and at least two digits: C11 7.21.6.1. -/
def scientific (n : Nat) (q : ℚ) : List Char :=
  let m := mantissa n q
  (if q < 0 then ['-'] else []) ++ (decimal (m.1 / 10 ^ n) ++ ('.' :: padded n (m.1 % 10 ^ n) ++
    ('e' :: (if m.2 < 0 then '-' else '+') :: ((if m.2.natAbs < 10 then ['0'] else []) ++ decimal m.2.natAbs))))

/-! ### Floorplans -/

/-- A floorplan element in memory, as far as it is printed: include/floorplan_element.h:68-96, include/ic_element.h:65-100. -/
structure Element where
  id : String
  rects : List (Rect ℚ)
  powers : PQ ℚ

/-- `ic_element_print`, with the line end of `ic_element_list_print`: sources/ic_element.c:148-159, sources/list_template.c:312-326. The
prefix is empty. -/
def rectText (r : Rect ℚ) : List Char :=
  "   rectangle (".toList ++ (fixed 1 r.x ++ (", ".toList ++ (fixed 1 r.y ++ (", ".toList ++ (fixed 1 r.length ++ (", ".toList ++
    (fixed 1 r.width ++ " ) ;\n\n".toList)))))))

/-- The loop of `powers_queue_print`: sources/powers_queue.c:174-184: `k` values before the last one. -/
def queueLoop (q : PQ ℚ) (m : List ℚ) : Nat → Nat → Option (List Char)
  | 0, i => m[i]?.map fun x => fixed 3 x ++ [' ']
  | k + 1, i => m[i]?.bind fun x =>
    if q.cap = 0 then none else (queueLoop q m k (((i + 1) % PowersQueue.W) % q.cap)).map fun t => fixed 3 x ++ (", ".toList ++ t)

/-- `powers_queue_print`: sources/powers_queue.c:162-186. `none`: the memory is read outside its bounds. -/
def queueText (q : PQ ℚ) : Option (List Char) :=
  if isEmpty q then some [' ']
  else q.mem.bind fun m => (queueLoop q m (q.size - 1) q.start).map fun t => ' ' :: t

/-- `floorplan_element_print`: sources/floorplan_element.c:149-170, and the line end of `floorplan_print`: sources/floorplan.c:152-166. -/
def elementText (e : Element) : Option (List Char) :=
  (queueText e.powers).map fun t =>
    e.id.toList ++ (":\n".toList ++ (e.rects.flatMap rectText ++ ("   power values ".toList ++ (t ++ " ;\n\n\n".toList))))

/-- `generate_floorplan_file`: sources/floorplan_file_parser.c:99-121, sources/floorplan.c:152-166: the text written into the file. -/
def floorplanText : List Element → Option (List Char)
  | [] => some []
  | e :: es => (elementText e).bind fun t => (floorplanText es).map fun u => t ++ u

/-! ### Stacks -/

/-- `material_print` with the line end of `material_list_print`: sources/material.c:129-144, sources/list_template.c:312-326. -/
def materialText (m : String × Material ℚ) : List Char :=
  "material ".toList ++ (m.1.toList ++ (" :\n   thermal conductivity     ".toList ++ (scientific 4 m.2.kx ++ ("     ".toList ++
    (scientific 4 m.2.ky ++ ("     ".toList ++ (scientific 4 m.2.kz ++ (" ;\n   volumetric heat capacity ".toList ++
    (scientific 4 m.2.vhc ++ " ;\n\n".toList)))))))))

/-- `generate_stack_description_file`: sources/stack_file_parser.c:107-136, sources/stack_description.c:79-127: the materials, in the order
of their declaration, then everything else, which is left open here: what is proved holds whatever follows. -/
def stackText (mats : List (String × Material ℚ)) (rest : List Char) : List Char := mats.flatMap materialText ++ rest

end Verif.Print
