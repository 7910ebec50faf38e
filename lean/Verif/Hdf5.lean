import Verif.H5Tables
import Verif.Sim

/-!
# `polycap_transmission_efficiencies_write_hdf5`, polycap-transmission-efficiencies.c:243-780

HDF5 is external.  Its state is kept as far as the file contents go (groups, datasets with dimensions, values
and the "Units" attribute) together with the number of open identifiers.  Each call of HDF5 or `malloc` may
fail, as an arbitrary function of the call and its position in the history decides; a call also fails if it
is given an invalid identifier, a dataset in a group that does not exist, or a name in use.

Simplifications: `int` loop counters do not overflow; an `H5...close` that fails leaves its identifier open;
what a failed call does to the file is not modelled beyond "nothing".
-/
namespace Polycap.H5
open CNum

variable {α : Type} [CNum α]

inductive Call where
  | fcreate | screate | dcreate | dwrite | screateScalar | tcopy | tsetSize | acreate | awrite | sclose | tclose | aclose | dclose
  | gcreate | gclose | fclose
  /-- a `malloc` whose result is checked -/
  | malloc
  /-- a `malloc` whose result is not checked -/
  | mallocU
  deriving DecidableEq

/-- A dataset: group, name, dimensions, and, once written, values (in C order) and unit. -/
structure DSet (α : Type) where
  grp : String
  name : String
  dims : List Nat
  vals : Option (List α)
  unit : Option String

/-- File contents (datasets newest first), the validity of the two identifiers used unchecked, and the
number of temporary arrays not yet released. -/
structure K (α : Type) where
  file : Bool
  groups : List String
  sets : List (DSet α)
  scal : Bool
  typ : Bool
  live : Nat

/-- everything the call acts on; `log`: the calls made so far, in order, and whether they succeeded -/
structure W (α : Type) where
  k : K α
  ids : Int
  log : List (Call × Bool)
  err : EArg

/-- the environment: error tables, which calls succeed, the HDF5 error stack left by a failing call -/
structure Env where
  tables : Tables
  ok : Call → Nat → Bool
  stack : Nat → Stack

/-- a piece of the function: continues (`true`) or makes it return `false` -/
abbrev Step (α : Type) := W α → Out (Bool × W α)

/-- `if (!step) return false;` one after the other -/
def seqAll : List (Step α) → Step α
  | [], w => .ok (true, w)
  | s :: ss, w => do
    let x ← s w
    if x.1 then seqAll ss x.2 else .ok (false, x.2)

/-- one call: succeeds if the environment lets it and the arguments are valid -/
def call (env : Env) (c : Call) (pre : K α → Bool) (d : Int) (eff : K α → K α) (w : W α) : Bool × W α :=
  if env.ok c w.log.length && pre w.k then (true, { w with k := eff w.k, ids := w.ids + d, log := w.log ++ [(c, true)] })
  else (false, { w with log := w.log ++ [(c, false)] })

/-- `set_exception(error)` after the call that was made last -/
def raise (env : Env) (w : W α) : Out (W α) := do
  let e ← setException env.tables (env.stack (w.log.length - 1)) w.err
  .ok { w with err := e }

/-- `if (call < 0) { set_exception(error); return false; }` -/
def chk (env : Env) (c : Call) (pre : K α → Bool) (d : Int) (eff : K α → K α) : Step α := fun w =>
  match call env c pre d eff w with
  | (true, w) => .ok (true, w)
  | (false, w) => do
    let w ← raise env w
    .ok (false, w)

/-- a call whose result is not looked at -/
def try' (env : Env) (c : Call) (pre : K α → Bool) (d : Int) (eff : K α → K α) : Step α := fun w =>
  .ok (true, (call env c pre d eff w).2)

/-- `if (call < 0) set_exception(error);` without a return -/
def chkOn (env : Env) (c : Call) (pre : K α → Bool) (d : Int) (eff : K α → K α) : Step α := fun w =>
  match call env c pre d eff w with
  | (true, w) => .ok (true, w)
  | (false, w) => do
    let w ← raise env w
    .ok (true, w)

def always : K α → Bool := fun _ => true

/-! ## `polycap_h5_write_dataset` (245-314) -/

def dimProd (dims : List Nat) : Nat := dims.foldr (· * ·) 1

/-- the `n` elements H5Dwrite reads; reading outside the array or before initialisation is undefined -/
def readBuf (f : Nat → Option α) : Nat → Out (List α)
  | 0 => .ok []
  | n + 1 => do
    let xs ← readBuf f n
    match f n with
    | some x => .ok (xs ++ [x])
    | none => .ub

/-- change the dataset created last -/
def onLast (f : DSet α → DSet α) : List (DSet α) → List (DSet α)
  | [] => []
  | d :: ds => f d :: ds

/-- H5Dcreate needs its group, and a name not in use -/
def canCreate (grp name : String) (k : K α) : Bool :=
  (decide (grp = "") || k.groups.any (fun g => decide (g = grp))) && k.sets.all (fun d => !decide (d.grp = grp ∧ d.name = name))

def dwrite (env : Env) (dims : List Nat) (data : Nat → Option α) : Step α := fun w => do
  let xs ← readBuf data (dimProd dims)
  chk env .dwrite always 0 (fun k => { k with sets := onLast (fun d => { d with vals := some xs }) k.sets }) w

def writeDataset (env : Env) (grp name : String) (dims : List Nat) (data : Nat → Option α) (unit : String) : Step α :=
  seqAll
    [chk env .screate always 1 id,
     chk env .dcreate (canCreate grp name) 1 (fun k => { k with sets := ⟨grp, name, dims, none, none⟩ :: k.sets }),
     dwrite env dims data,
     try' env .screateScalar always 1 (fun k => { k with scal := true }),
     try' env .tcopy always 1 (fun k => { k with typ := true }),
     chk env .tsetSize (fun k => k.typ) 0 id,
     chk env .acreate (fun k => k.scal && k.typ) 1 id,
     chk env .awrite always 0 (fun k => { k with sets := onLast (fun d => { d with unit := some unit }) k.sets }),
     chk env .sclose (fun k => k.scal) (-1) (fun k => { k with scal := false }),
     chk env .tclose (fun k => k.typ) (-1) (fun k => { k with typ := false }),
     chk env .aclose always (-1) id,
     chk env .dclose always (-1) id,
     chk env .sclose always (-1) id]

/-! ## The temporary array -/

/-- `data_temp[j + k*stride] = row k [j]` for all rows, one `j` (360-363 and the like) -/
def fillAt (size stride j : Nat) : Nat → List (Nat → Option α) → (Nat → Option α) → Out (Nat → Option α)
  | _, [], b => .ok b
  | k, r :: rs, b =>
    match r j with
    | none => .ub
    | some v => if j + k * stride < size then fillAt size stride j (k + 1) rs (upd1 b (j + k * stride) (some v)) else .ub

def fillFrom (size stride : Nat) (rows : List (Nat → Option α)) : List Nat → (Nat → Option α) → Out (Nat → Option α)
  | [], b => .ok b
  | j :: js, b => do
    let b ← fillAt size stride j 0 rows b
    fillFrom size stride rows js b

/-- `malloc` of `data_temp`, checked (354-358) -/
def mallocTemp (env : Env) : Step α := fun w =>
  match call env .malloc always 0 (fun k => { k with live := k.live + 1 }) w with
  | (true, w) => .ok (true, w)
  | (false, w) => .ok (false, { w with err := w.err.set .memory })

/-- `free(data_temp)` -/
def freeTemp : Step α := fun w => .ok (true, { w with k := { w.k with live := w.k.live - 1 } })

/-- `malloc` of `size` elements, the copy loop over `j < cnt`, the dataset, `free` (353-371 and the like) -/
def tempSet (env : Env) (grp name : String) (dims : List Nat) (size cnt stride : Nat) (rows : List (Nat → Option α))
    (unit : String) : Step α :=
  seqAll
    [mallocTemp env,
     fun w => do
      let b ← fillFrom size stride rows (List.range cnt) (fun _ => none)
      writeDataset env grp name dims b unit w,
     freeTemp]

/-- `data_temp[j]` of the total weights: `0.0`, `+= w[k*n_energies+j]` for `k < m`, divided by `i_start` (567-573, 656-662) -/
def leakSum (ne : Nat) (w : Nat → Option α) (j : Nat) : Nat → Option α
  | 0 => some (lit 0)
  | m + 1 => do
    let s ← leakSum ne w j m
    let x ← w (m * ne + j)
    some (s +. x)

/-- 565-579, 654-668: the result of this `malloc` is not checked -/
def totalSet (env : Env) (grp : String) (ne m iStart : Nat) (wts : Nat → Option α) : Step α := fun w =>
  match call env .mallocU always 0 (fun k => { k with live := k.live + 1 }) w with
  | (false, _) => .ub
  | (true, w) =>
    seqAll
      [fun w => do
        let b ← fillFrom ne ne [fun j => (leakSum ne wts j m).map (fun s => s /. ofInt (iStart : Int))] (List.range ne) (fun _ => none)
        writeDataset env grp "Weight_Total" [ne] b "a.u." w,
       freeTemp] w

/-! ## `polycap_transmission_efficiencies_write_hdf5` (317-780) -/

/-- what `efficiencies->source` points to when the file is written -/
structure Inp (α : Type) where
  src : Src α
  descr : Descr α
  openArea : α

def grpStep (env : Env) (g : String) : Step α := try' env .gcreate always 1 (fun k => { k with groups := g :: k.groups })
def grpClose (env : Env) (g : String) : Step α := chkOn env .gclose (fun k => k.groups.any (fun x => decide (x = g))) (-1) id

/-- 338-508 -/
def photonSteps (env : Env) (te : TE α) : List (Step α) :=
  let ne := te.energies.length
  let n := te.iExit
  [writeDataset env "" "Energies" [ne] (fun i => te.energies[i]?) "keV",
   writeDataset env "" "Transmission_Efficiencies" [ne] (fun i => te.effs[i]?) "a.u.",
   grpStep env "PC_Start",
   tempSet env "PC_Start" "Coordinates" [2, n] (n * 2) n n [fun j => (te.start j).map (·.x), fun j => (te.start j).map (·.y)] "[cm,cm]",
   tempSet env "PC_Start" "Direction" [2, n] (n * 2) n n [fun j => (te.start j).map (·.dirX), fun j => (te.start j).map (·.dirY)] "[cm,cm]",
   tempSet env "PC_Start" "Electric_Vector" [2, n] (n * 2) n n [fun j => (te.start j).map (·.elecX), fun j => (te.start j).map (·.elecY)] "[cm,cm]",
   grpStep env "PC_Exit",
   tempSet env "PC_Exit" "Coordinates" [3, n] (n * 3) n n
     [fun j => (te.exit j).map (·.x), fun j => (te.exit j).map (·.y), fun j => (te.exit j).map (·.z)] "[cm,cm,cm]",
   tempSet env "PC_Exit" "N_Reflections" [n] n n n [fun j => (te.exit j).map (fun r => ofInt r.n_refl)] "a.u.",
   tempSet env "PC_Exit" "Direction" [2, n] (n * 2) n n [fun j => (te.exit j).map (·.dirX), fun j => (te.exit j).map (·.dirY)] "[cm,cm]",
   tempSet env "" "Source_Start_Coordinates" [2, n] (n * 2) n n [fun j => (te.start j).map (·.srcX), fun j => (te.start j).map (·.srcY)] "[cm,cm]",
   tempSet env "PC_Exit" "Electric_Vector" [2, n] (n * 2) n n [fun j => (te.exit j).map (·.elecX), fun j => (te.exit j).map (·.elecY)] "[cm,cm]",
   writeDataset env "PC_Exit" "Weights" [n, ne] te.exitW "[keV,a.u.]",
   writeDataset env "PC_Exit" "D_Travel" [n] (fun j => (te.exit j).map (·.d_travel)) "[cm]"]

/-- 517-595 -/
def extSteps (env : Env) (te : TE α) : List (Step α) :=
  let ne := te.energies.length
  let m := te.iExt
  if m > 0 then
    [grpStep env "ExternalLeaks",
     tempSet env "ExternalLeaks" "Coordinates" [3, m] (m * 3) m m
       [fun j => (te.extL j).map (·.coords.x), fun j => (te.extL j).map (·.coords.y), fun j => (te.extL j).map (·.coords.z)] "[cm,cm,cm]",
     tempSet env "ExternalLeaks" "Direction" [2, m] (m * 2) m m [fun j => (te.extL j).map (·.dirX), fun j => (te.extL j).map (·.dirY)] "[cm,cm]",
     writeDataset env "ExternalLeaks" "Weights" [m, ne] te.extW "[keV,a.u.]",
     totalSet env "ExternalLeaks" ne m te.iStart te.extW,
     tempSet env "ExternalLeaks" "N_Reflections" [m] m m m [fun j => (te.extL j).map (fun r => ofInt r.n_refl)] "a.u.",
     grpClose env "ExternalLeaks"]
  else []

/-- 597-687 -/
def intSteps (env : Env) (te : TE α) : List (Step α) :=
  let ne := te.energies.length
  let m := te.iInt
  if m > 0 then
    [grpStep env "InternalLeaks",
     tempSet env "InternalLeaks" "Coordinates" [3, m] (m * 3) m m
       [fun j => (te.intL j).map (·.coords.x), fun j => (te.intL j).map (·.coords.y), fun j => (te.intL j).map (·.coords.z)] "[cm,cm,cm]",
     tempSet env "InternalLeaks" "Direction" [2, m] (m * 2) m m [fun j => (te.intL j).map (·.dirX), fun j => (te.intL j).map (·.dirY)] "[cm,cm]",
     tempSet env "InternalLeaks" "Electric_Vector" [2, m] (m * 2) m m
       [fun j => (te.intL j).bind (fun r => r.elec.map (·.1)), fun j => (te.intL j).bind (fun r => r.elec.map (·.2))] "[cm,cm]",
     writeDataset env "InternalLeaks" "Weights" [m, ne] te.intW "[keV,a.u.]",
     totalSet env "InternalLeaks" ne m te.iStart te.intW,
     tempSet env "InternalLeaks" "N_Reflections" [m] m m m [fun j => (te.intL j).map (fun r => ofInt r.n_refl)] "a.u.",
     grpClose env "InternalLeaks"]
  else []

/-- one value, straight from a struct member (741-761) -/
def one (x : α) : Nat → Option α := fun i => if i = 0 then some x else none

/-- an array of the profile: `nmax + 1` elements -/
def profArr (p : Profile α) (f : Nat → α) : Nat → Option α := fun j => if j ≤ p.nmax then some (f j) else none

/-- 691-762; a source that has been released in the meantime is a dangling pointer -/
def inputSteps (env : Env) (inp : Option (Inp α)) : List (Step α) :=
  match inp with
  | none => [fun _ => .ub]
  | some i =>
    let p := i.descr.prof
    let nel := i.descr.wi.length
    [grpStep env "Input",
     tempSet env "Input" "PC_Shape" [2, p.nmax] (p.nmax * 2) p.nmax p.nmax [profArr p p.z, profArr p p.ext] "[cm,cm]",
     tempSet env "Input" "Cap_Shape" [2, p.nmax] (p.nmax * 2) p.nmax p.nmax [profArr p p.z, profArr p p.cap] "[cm,cm]",
     tempSet env "Input" "N_Capillaries" [1] 1 1 1 [one (ofInt i.descr.n_cap)] "a.u.",
     writeDataset env "Input" "Surface_Roughness" [1] (one i.descr.sig_rough) "Angstrom",
     writeDataset env "Input" "Open_Area" [1] (one i.openArea) "a.u.",
     tempSet env "Input" "PC_Composition" [2, nel] (nel * 2) nel nel
       [fun j => (i.descr.iz[j]?).map ofInt, fun j => i.descr.wi[j]?] "[Z,w%]",
     writeDataset env "Input" "PC_Density" [1] (one i.descr.density) "g/cm3",
     writeDataset env "Input" "Src_PC_Dist" [1] (one i.src.d_source) "cm"]

/-- 765-777 -/
def closeSteps (env : Env) : List (Step α) :=
  [grpClose env "PC_Exit", grpClose env "PC_Start", grpClose env "Input", chkOn env .fclose always (-1) id]

/-- state before the call -/
def W.initial (e : EArg) : W α := ⟨⟨false, [], [], false, false, 0⟩, 0, [], e⟩

/-- The whole function: `hasName`: the file name is not NULL.  Returns what it returns and the final state. -/
def writeHdf5 (env : Env) (hasName : Bool) (te : Option (TE α)) (inp : Option (Inp α)) (e : EArg) : Out (Bool × W α) :=
  if !hasName then .ok (false, { W.initial e with err := e.set .invalidArgument })
  else
    match te with
    | none => .ok (false, { W.initial e with err := e.set .invalidArgument })
    | some te =>
      seqAll (chk env .fcreate always 1 (fun k => { k with file := true }) ::
        (photonSteps env te ++ extSteps env te ++ intSteps env te ++ inputSteps env inp ++ closeSteps env)) (W.initial e)

end Polycap.H5
