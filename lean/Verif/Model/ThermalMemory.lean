import Verif.Model.Memory

/-! Model of the memory of the thermal data: `thermal_data_init`, `thermal_data_build`, `thermal_data_destroy` and the functions they call to allocate, fill and free
the thermal grid, the power grid and the system matrix.

Simplifications: a block that the code refers to by one field of the structures has a name (`Name`); the contents of the blocks are not modelled, except those of the
array of layers, which owns strings, materials and layouts. The blocks of SuperLU are one block for each of its structures: the store of a matrix, the
statistics, the permuted matrix; SuperLU ends the program when it cannot allocate them. `malloc` in `thermal_data_build` and in the functions for the grids and the matrix
fails or not for every block (`ok`); within `layer_copy` it does not fail. The working arrays of the non-uniform grids, freed by the functions that allocate them, are left out, and
so is `Cell_pointer`, a block of the dimensions. The elements of the stack are given as a list, the bottom-most first (the order in which the code visits them),
with the layers of a die in the order in which the code visits them. -/

namespace Verif.Own

/-- The fields that point to blocks: include/thermal_data.h, include/thermal_grid.h, include/power_grid.h, include/system_matrix.h. -/
inductive Name where
  | temperatures | bStore
  | tTypes | tLayers
  | pTypes | floorplans | sources | topTcs | bottomTcs | capacities
  | rowIndices | columnPointers | values | aStore | permR | permC | etree | colcnt | partSuper | gstat
  | nzvalU | colbeg | colend | rowindU | uStore
  | nzvalL | nzvalColbeg | nzvalColend | rowindL | rowindColbeg | rowindColend | colToSup | supToColbeg | supToColend | lStore
  | permuted
deriving DecidableEq

/-- What a pointer field contains: nothing was assigned to it, `NULL`, an address. -/
inductive Pv where
  | unset
  | null
  | at (p : Nat)

/-- `ThermalData_t`: the pointers, `ThermalGrid.NLayers`, and whether `SLU_Options.fact` is `FACTORED`. -/
structure TData where
  ptr : Name → Pv
  nLayers : Nat
  factored : Bool

def TData.set (t : TData) (n : Name) (v : Pv) : TData := { t with ptr := fun m => if m = n then v else t.ptr m }

/-- `free` of a field. -/
noncomputable def freePv (v : Pv) : M Unit :=
  match v with
  | .unset => ub
  | .null => pure ()
  | .at p => free p

/-- A sequence of `free`. -/
noncomputable def freeAll (t : TData) : List Name → M Unit
  | [] => pure ()
  | n :: ns => do freePv (t.ptr n); freeAll t ns

/-! ### The thermal grid: sources/thermal_grid.c -/

/-- `thermal_grid_init`: sources/thermal_grid.c:48-56. -/
def tgInit (t : TData) : TData := { (t.set .tTypes .null).set .tLayers .null with nLayers := 0 }

/-- The loop of `thermal_grid_destroy` on the array at `p`: sources/thermal_grid.c:104-109; `k` layers from the one at `i`. -/
noncomputable def destroyLayers (p : Nat) : Nat → Nat → M Unit
  | 0, _ => pure ()
  | k + 1, i => do
    let ls ← load (List Layer) p
    match ls[i]? with
    | none => ub
    | some l => do
      let d ← layerDestroy l
      store p (ls.set i d)
      destroyLayers p k (i + 1)

/-- `thermal_grid_destroy`: sources/thermal_grid.c:97-114. -/
noncomputable def tgDestroy (t : TData) : M TData := do
  freePv (t.ptr .tTypes)
  match t.ptr .tLayers with
  | .unset => ub
  | .null => pure (tgInit t)
  | .at p => do
    destroyLayers p t.nLayers 0
    free p
    pure (tgInit t)

/-- What `thermal_grid_fill` uses of a stack element. -/
inductive Part where
  | die (offset : Nat) (layers : List Layer) (source : Nat)
  | layer (offset : Nat) (l : Layer)
  | channel (offset : Nat) (id : Ptr) (c : Channel) (rm4 : Bool)

/-- `layer_copy (tgrid->LayersProfile + i, source)`. -/
noncomputable def copyInto (p i : Nat) (src : Layer) : M Unit := do
  let ls ← load (List Layer) p
  match ls[i]? with
  | none => ub
  | some d => do
    let d' ← layerCopy d src
    store p (ls.set i d')

/-- Copies to consecutive positions. -/
noncomputable def copyAll (p : Nat) : Nat → List Layer → M Unit
  | _, [] => pure ()
  | i, l :: ls => do copyInto p i l; copyAll p (i + 1) ls

/-- The layers of one stack element: sources/thermal_grid.c:130-190 (a die 132-153, a layer 155-162, a channel 164-190 with its temporary layer). -/
noncomputable def fillPart (p : Nat) : Part → M Unit
  | .die off ls _ => copyAll p off ls
  | .layer off l => copyInto p off l
  | .channel off id c _ => do
    let m ← materialCopy materialInit c.material
    let i ← stringCopy none id
    let tmp : Layer := ⟨c.height, m, i, none, listInit, 0, 0⟩
    copyAll p off (List.replicate c.nLayers tmp)
    let _ ← layerDestroy tmp
    pure ()

noncomputable def fillParts (p : Nat) : List Part → M Unit
  | [] => pure ()
  | e :: es => do fillPart p e; fillParts p es

/-- What the checks at the end of `thermal_grid_fill` distinguish of the type of a layer. -/
inductive Kind where
  | other
  | bare
  | connected
deriving DecidableEq

/-- The types of the layers: sources/thermal_grid.c:140-153, 157, 192-226. -/
def kinds (n : Nat) (es : List Part) : List Kind :=
  es.foldl (fun ks e => match e with
    | .die off ls src => ((List.range ls.length).foldl (fun ks j => ks.set (off + j) .bare) ks).set (off + src) .bare
    | .layer off _ => ks.set off .bare
    | .channel _ _ _ _ => ks) (List.replicate n .other)

/-- What `thermal_data_build` is called with, and what the environment does: the layers and the stack elements, the top sink (`some true`: a pluggable one), the
bottom sink, which allocations succeed, whether SuperLU finds the matrix singular. -/
structure Input where
  nLayers : Nat
  parts : List Part
  top : Option Bool
  bottom : Bool
  ok : Name → Bool
  singular : Bool

/-- Does `thermal_grid_fill` return an error? sources/thermal_grid.c:244-320. -/
def refuses (x : Input) : Bool :=
  let ks := kinds x.nLayers x.parts
  let top := fun k : Kind => if k = .bare then Kind.connected else k
  match x.top with
  | none => false
  | some plug =>
    if plug && x.parts.any fun e => match e with | .channel _ _ _ r => r | _ => false then true
    else x.bottom && decide ((ks.set (x.nLayers - 1) (top (ks.getD (x.nLayers - 1) .other))).getD 0 .other = .connected)

/-! ### Sequences of allocations -/

/-- A sequence of allocations: each with what is freed when it fails, before the failure is returned (`none`: SuperLU allocates, the function
does not return when that fails). The field is assigned in both cases. -/
noncomputable def allocTable (ok : Name → Bool) : List (Name × Option (List Name)) → TData → M (Bool × TData)
  | [], t => pure (true, t)
  | (n, o) :: l, t =>
    match o, ok n with
    | some fs, false => do
      freeAll (t.set n .null) fs
      pure (false, t.set n .null)
    | _, _ => do
      let p ← alloc ()
      allocTable ok l (t.set n (.at p))

/-- `power_grid_build`: sources/power_grid.c:62-195. -/
def pgTable : List (Name × Option (List Name)) :=
  [(.pTypes, some []),
   (.floorplans, some [.pTypes]),
   (.sources, some [.pTypes, .floorplans]),
   (.topTcs, some [.pTypes, .floorplans, .sources]),
   (.bottomTcs, some [.pTypes, .floorplans, .sources, .topTcs]),
   (.capacities, some [.pTypes, .floorplans, .sources, .topTcs, .bottomTcs])]

/-- What `system_matrix_build` frees when it cannot allocate U: sources/system_matrix.c:217-229. -/
def freeU : List Name := [.columnPointers, .rowIndices, .values, .aStore, .permR, .permC, .etree, .colcnt, .partSuper, .gstat]

/-- What `system_matrix_build` frees when it cannot allocate L: sources/system_matrix.c:232-247; `Destroy_CompCol_NCP` frees the arrays of U and its store. -/
def freeL : List Name :=
  [.columnPointers, .rowIndices, .values, .aStore, .permR, .permC, .etree, .colcnt, .partSuper, .gstat, .nzvalU, .rowindU, .colbeg, .colend, .uStore]

/-- `system_matrix_build`: sources/system_matrix.c:107-250, `allocate_U_Matrix`: 378-423, `allocate_L_Matrix`: 254-374. -/
def smTable : List (Name × Option (List Name)) :=
  [(.rowIndices, some []),
   (.columnPointers, some [.rowIndices]),
   (.values, some [.columnPointers, .rowIndices]),
   (.aStore, none),
   (.permR, some [.columnPointers, .rowIndices, .values, .aStore]),
   (.permC, some [.columnPointers, .rowIndices, .values, .aStore, .permR]),
   (.etree, some [.columnPointers, .rowIndices, .values, .aStore, .permR, .permC]),
   (.colcnt, some [.columnPointers, .rowIndices, .values, .aStore, .permR, .permC, .etree]),
   (.partSuper, some [.columnPointers, .rowIndices, .values, .aStore, .permR, .permC, .etree, .colcnt]),
   (.gstat, none),
   (.nzvalU, some freeU),
   (.colbeg, some (.nzvalU :: freeU)),
   (.colend, some (.colbeg :: .nzvalU :: freeU)),
   (.rowindU, some (.colend :: .colbeg :: .nzvalU :: freeU)),
   (.uStore, none),
   (.nzvalL, some freeL),
   (.nzvalColbeg, some (.nzvalL :: freeL)),
   (.nzvalColend, some (.nzvalColbeg :: .nzvalL :: freeL)),
   (.rowindL, some (.nzvalColend :: .nzvalColbeg :: .nzvalL :: freeL)),
   (.rowindColbeg, some (.rowindL :: .nzvalColend :: .nzvalColbeg :: .nzvalL :: freeL)),
   (.rowindColend, some (.rowindColbeg :: .rowindL :: .nzvalColend :: .nzvalColbeg :: .nzvalL :: freeL)),
   (.colToSup, some (.rowindColend :: .rowindColbeg :: .rowindL :: .nzvalColend :: .nzvalColbeg :: .nzvalL :: freeL)),
   (.supToColbeg, some (.colToSup :: .rowindColend :: .rowindColbeg :: .rowindL :: .nzvalColend :: .nzvalColbeg :: .nzvalL :: freeL)),
   (.supToColend, some (.supToColbeg :: .colToSup :: .rowindColend :: .rowindColbeg :: .rowindL :: .nzvalColend :: .nzvalColbeg :: .nzvalL :: freeL)),
   (.lStore, none)]

/-! ### Destruction -/

/-- `power_grid_init`: sources/power_grid.c:46-60. -/
def pgInit (t : TData) : TData :=
  { t with ptr := fun n => if n ∈ [Name.pTypes, .floorplans, .sources, .topTcs, .bottomTcs, .capacities] then .null else t.ptr n }

/-- `power_grid_destroy`: sources/power_grid.c:202-217. -/
noncomputable def pgDestroy (t : TData) : M TData := do
  freeAll t [.pTypes, .floorplans, .sources, .topTcs, .bottomTcs, .capacities]
  pure (pgInit t)

/-- `system_matrix_init`: sources/system_matrix.c:46-103. The arrays of L and U are not assigned. -/
def smInit (t : TData) : TData :=
  { t with
    ptr := fun n => if n ∈ [Name.columnPointers, .rowIndices, .values, .aStore, .permuted, .lStore, .uStore, .gstat, .permC, .permR, .etree, .colcnt, .partSuper]
      then .null else t.ptr n
    factored := false }

/-- What `system_matrix_destroy` always frees: sources/system_matrix.c:477-512. -/
def smFrees : List Name :=
  [.columnPointers, .rowIndices, .values,
   .nzvalL, .nzvalColbeg, .nzvalColend, .rowindL, .rowindColbeg, .rowindColend, .colToSup, .supToColbeg, .supToColend, .lStore,
   .nzvalU, .rowindU, .colbeg, .colend, .uStore, .aStore, .gstat, .permR, .permC, .etree, .colcnt, .partSuper]

/-- `system_matrix_destroy`: sources/system_matrix.c:475-520. -/
noncomputable def smDestroy (t : TData) : M TData := do
  freeAll t smFrees
  if t.factored then freeAll t [.permuted] else pure ()
  pure (smInit t)

/-- `thermal_data_init`: sources/thermal_data.c:52-63. -/
def tdInit (t : TData) : TData := (smInit (pgInit (tgInit (t.set .temperatures .null)))).set .bStore .null

/-- `thermal_data_destroy`: sources/thermal_data.c:1252-1264. -/
noncomputable def tdDestroy (t : TData) : M TData := do
  freePv (t.ptr .temperatures)
  let t ← tgDestroy t
  let t ← pgDestroy t
  let t ← smDestroy t
  freePv (t.ptr .bStore)
  pure (tdInit t)

/-! ### Construction -/

/-- `do_factorization` on a new matrix: sources/system_matrix.c:427-471; `sp_colorder` allocates the permuted matrix. -/
noncomputable def factorize (x : Input) (t : TData) : M (Bool × TData) := do
  let p ← alloc ()
  if x.singular then pure (false, t.set .permuted (.at p)) else pure (true, { t.set .permuted (.at p) with factored := true })

/-- The last part of `thermal_data_build`, with the system matrix: sources/thermal_data.c:1177-1232. -/
noncomputable def buildMatrix (x : Input) (t : TData) : M (Bool × TData) := do
  let r ← allocTable x.ok smTable t
  if r.1 then do
    let r ← factorize x r.2
    if r.1 then pure (true, r.2)
    else do
      let t ← tdDestroy r.2
      pure (false, t)
  else do
    freeAll r.2 [.bStore, .temperatures]
    let t ← tgDestroy r.2
    let t ← pgDestroy t
    pure (false, t)

/-- The middle part, after `thermal_grid_fill`: sources/thermal_data.c:1143-1175. -/
noncomputable def buildPower (x : Input) (t : TData) : M (Bool × TData) :=
  if refuses x then do
    freeAll t [.bStore, .temperatures]
    pure (false, t)
  else do
    let r ← allocTable x.ok pgTable t
    if r.1 then buildMatrix x r.2
    else do
      freeAll r.2 [.bStore, .temperatures]
      let t ← tgDestroy r.2
      pure (false, t)

/-- `thermal_data_build`: sources/thermal_data.c:1034-1232; `thermal_grid_build`: sources/thermal_grid.c:60-93. -/
noncomputable def tdBuild (x : Input) (t : TData) : M (Bool × TData) := do
  let r ← allocTable x.ok [(.temperatures, some []), (.bStore, none), (.tTypes, some [.bStore, .temperatures])] { t with nLayers := x.nLayers }
  if r.1 then
    if x.ok .tLayers then do
      let p ← alloc (List.replicate x.nLayers layerInit)
      fillParts p x.parts
      buildPower x (r.2.set .tLayers (.at p))
    else do
      freeAll (r.2.set .tLayers .null) [.tTypes, .bStore, .temperatures]
      pure (false, r.2.set .tLayers .null)
  else pure (false, r.2)

end Verif.Own
