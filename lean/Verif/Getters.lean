import Verif.Sim
import Verif.Hdf5

/-!
# Reading results: `polycap_transmission_efficiencies_get_*` (`/repo/src/polycap-transmission-efficiencies.c:782-1054, 1147-1167`)

Value-level model.  `malloc` request number `k` of a call succeeds iff `ok k`.  The counters `int i, j` do not overflow.
-/
namespace Polycap.Get
open CNum Polycap.H5

variable {α : Type} [CNum α]

/-- What a caller finds in a pointer variable after the call: not assigned, NULL, an array whose contents were not (completely)
written, an array with the given contents. -/
inductive Cell (β : Type) where
  | untouched
  | null
  | raw
  | arr (v : β)
  deriving DecidableEq

/-- The `polycap_transmission_efficiencies *` argument: `none` is NULL, `some none` one whose `images` is NULL. -/
abbrev Arg (α : Type) := Option (Option (TE α))

/-- `sqrt(1.- x*x - y*y)`, the dropped third component -/
def restZ (x y : α) : α := sqrt (lit 1 -. x *. x -. y *. y)

/-- polycap_vector3 with a rebuilt third component -/
def rebuilt (x y : α) : V3 α := ⟨x, y, restZ x y⟩

/-- the state of pointer number `k` of a sequence of allocations of which number `i` failed -/
def cellAt {β : Type} (i k : Nat) : Cell β := if k < i then .raw else if k = i then .null else .untouched

/-- number of the first failing request below `n`, if any -/
def firstFail (ok : Nat → Bool) : Nat → Option Nat
  | 0 => none
  | n + 1 => match firstFail ok n with
    | some i => some i
    | none => if ok n then none else some n

/-! ## `polycap_transmission_efficiencies_get_start_data` (782-846) -/

structure StartOut (α : Type) where
  nStart : Option Nat
  nExit : Option Nat
  coords : Cell (List (V3 α))
  dir : Cell (List (V3 α))
  elec : Cell (List (V3 α))
  src : Cell (List (V3 α))

/-- lines 786-845 -/
def getStart (ok : Nat → Bool) (te : Arg α) (e : EArg) : Out (Bool × EArg × StartOut α) :=
  match te with
  | none => .ok (false, e.set .invalidArgument, ⟨none, none, .untouched, .untouched, .untouched, .untouched⟩)
  | some none => .ok (false, e.set .invalidArgument, ⟨none, none, .untouched, .untouched, .untouched, .untouched⟩)
  | some (some r) =>
    if r.iStart = 0 then .ok (false, e.set .invalidArgument, ⟨some r.iStart, none, .untouched, .untouched, .untouched, .untouched⟩)
    else if r.iExit = 0 then .ok (false, e.set .invalidArgument, ⟨some r.iStart, some r.iExit, .untouched, .untouched, .untouched, .untouched⟩)
    else match firstFail ok 4 with
    | some i => .ok (false, e.set .memory, ⟨some r.iStart, some r.iExit, cellAt i 0, cellAt i 1, cellAt i 2, cellAt i 3⟩)
    | none => do
      let xs ← readBuf r.start r.iExit
      .ok (true, e, ⟨some r.iStart, some r.iExit, .arr (xs.map (fun s => ⟨s.x, s.y, lit 0⟩)), .arr (xs.map (fun s => rebuilt s.dirX s.dirY)),
        .arr (xs.map (fun s => rebuilt s.elecX s.elecY)), .arr (xs.map (fun s => ⟨s.srcX, s.srcY, lit 0⟩))⟩)

/-! ## `polycap_transmission_efficiencies_get_exit_data` (848-927) -/

structure ExitOut (α : Type) where
  nExit : Option Nat
  nEnergies : Option Nat
  coords : Cell (List (V3 α))
  dir : Cell (List (V3 α))
  elec : Cell (List (V3 α))
  nRefl : Cell (List Int)
  dTravel : Cell (List α)
  weights : Cell (List (List α))

/-- lines 916-923: one row of weights; `w[i*ne+j]` -/
def rowAt (w : Nat → Option α) (ne i : Nat) : Out (List α) := readBuf (fun j => w (i * ne + j)) ne

/-- the rows of all events; an allocation for row `i` comes first, request number `base + i` -/
def rowsLoop (ok : Nat → Bool) (base : Nat) (w : Nat → Option α) (ne : Nat) : Nat → Out (Option (List (List α)))
  | 0 => .ok (some [])
  | n + 1 => do
    let x ← rowsLoop ok base w ne n
    match x with
    | none => .ok none
    | some xs => if ok (base + n) then (do
        let y ← rowAt w ne n
        .ok (some (xs ++ [y]))) else .ok none

/-- lines 852-926.  Only `i_start == 0` is refused. -/
def getExit (ok : Nat → Bool) (te : Arg α) (e : EArg) : Out (Bool × EArg × ExitOut α) :=
  match te with
  | none => .ok (false, e.set .invalidArgument, ⟨none, none, .untouched, .untouched, .untouched, .untouched, .untouched, .untouched⟩)
  | some none => .ok (false, e.set .invalidArgument, ⟨none, none, .untouched, .untouched, .untouched, .untouched, .untouched, .untouched⟩)
  | some (some r) =>
    let ne := r.energies.length
    if r.iStart = 0 then .ok (false, e.set .invalidArgument, ⟨some r.iExit, some ne, .untouched, .untouched, .untouched, .untouched, .untouched, .untouched⟩)
    else match firstFail ok 6 with
    | some i => .ok (false, e.set .memory, ⟨some r.iExit, some ne, cellAt i 0, cellAt i 1, cellAt i 2, cellAt i 3, cellAt i 4, cellAt i 5⟩)
    | none => do
      let xs ← readBuf r.exit r.iExit
      let rows ← rowsLoop ok 6 r.exitW ne r.iExit
      match rows with
      | none => .ok (false, e.set .memory, ⟨some r.iExit, some ne, .raw, .raw, .raw, .raw, .raw, .raw⟩)
      | some ws => .ok (true, e, ⟨some r.iExit, some ne, .arr (xs.map (fun s => ⟨s.x, s.y, s.z⟩)), .arr (xs.map (fun s => rebuilt s.dirX s.dirY)),
          .arr (xs.map (fun s => rebuilt s.elecX s.elecY)), .arr (xs.map (·.n_refl)), .arr (xs.map (·.d_travel)), .arr ws⟩)

/-! ## `polycap_transmission_efficiencies_get_extleak_data` (929-992), `..._get_intleak_data` (994-1054) -/

/-- a `polycap_leak` handed out; `elecv = none`: this member was not written -/
structure GLeak (α : Type) where
  coords : V3 α
  dir : V3 α
  elecv : Option (V3 α)
  nEnergies : Nat
  nRefl : Int
  weight : List α

structure LeakOut (α : Type) where
  nLeaks : Option Nat
  leaks : Cell (List (GLeak α))

/-- external leaks, lines 963-987: the electric vector is not filled in (commented out) -/
def extLeak (ne : Nat) (l : LeakRec α) (w : List α) : Out (GLeak α) :=
  .ok ⟨l.coords, rebuilt l.dirX l.dirY, none, ne, l.n_refl, w⟩

/-- internal leaks, lines 1027-1050 -/
def intLeak (ne : Nat) (l : LeakRec α) (w : List α) : Out (GLeak α) :=
  match l.elec with
  | some v => .ok ⟨l.coords, rebuilt l.dirX l.dirY, some (rebuilt v.1 v.2), ne, l.n_refl, w⟩
  | none => .ub

/-- lines 957-989, 1021-1051: per leak a struct (request `1 + 2*i`) and its weights (request `2 + 2*i`) -/
def leakLoop (ok : Nat → Bool) (mk : Nat → LeakRec α → List α → Out (GLeak α)) (L : Nat → Option (LeakRec α)) (w : Nat → Option α) (ne : Nat) :
    Nat → Out (Option (List (GLeak α)))
  | 0 => .ok (some [])
  | n + 1 => do
    let x ← leakLoop ok mk L w ne n
    match x with
    | none => .ok none
    | some xs =>
      if ok (1 + 2 * n) then
        match L n with
        | none => .ub
        | some l => if ok (2 + 2 * n) then (do
            let y ← rowAt w ne n
            let g ← mk ne l y
            .ok (some (xs ++ [g]))) else .ok none
      else .ok none

/-- the common part, lines 934-952, 999-1016 -/
def getLeaks (ok : Nat → Bool) (mk : Nat → LeakRec α → List α → Out (GLeak α)) (cnt : TE α → Nat) (L : TE α → Nat → Option (LeakRec α))
    (w : TE α → Nat → Option α) (te : Arg α) (e : EArg) : Out (Bool × EArg × LeakOut α) :=
  match te with
  | none => .ok (false, e.set .invalidArgument, ⟨none, .untouched⟩)
  | some none => .ok (false, e.set .invalidArgument, ⟨none, .untouched⟩)
  | some (some r) =>
    if cnt r = 0 then .ok (false, e.set .invalidArgument, ⟨some (cnt r), .null⟩)
    else if ok 0 then do
      let x ← leakLoop ok mk (L r) (w r) r.energies.length (cnt r)
      match x with
      | none => .ok (false, e.set .memory, ⟨some (cnt r), .raw⟩)
      | some xs => .ok (true, e, ⟨some (cnt r), .arr xs⟩)
    else .ok (false, e.set .memory, ⟨some (cnt r), .null⟩)

def getExt (ok : Nat → Bool) (te : Arg α) (e : EArg) : Out (Bool × EArg × LeakOut α) :=
  getLeaks ok extLeak (·.iExt) (·.extL) (·.extW) te e

def getInt (ok : Nat → Bool) (te : Arg α) (e : EArg) : Out (Bool × EArg × LeakOut α) :=
  getLeaks ok intLeak (·.iInt) (·.intL) (·.intW) te e

/-! ## `polycap_transmission_efficiencies_get_data` (1147-1167) -/

structure DataOut (α : Type) where
  nEnergies : Option Nat
  energies : Cell (List α)
  effs : Cell (List α)

/-- one optional output array; the result of `malloc` is not checked, so copying to NULL is undefined -/
def copyOut (want : Bool) (ok : Bool) (xs : List α) : Out (Cell (List α)) :=
  if want then (if ok then .ok (.arr xs) else .ub) else .ok .untouched

/-- `wantN`, `wantE`, `wantT`: the three output arguments are not NULL -/
def getData (ok : Nat → Bool) (te : Option (TE α)) (wantN wantE wantT : Bool) (e : EArg) : Out (Bool × EArg × DataOut α) :=
  match te with
  | none => .ok (false, e.set .invalidArgument, ⟨none, .untouched, .untouched⟩)
  | some r => do
    let a ← copyOut wantE (ok 0) r.energies
    let b ← copyOut wantT (ok 1) r.effs
    .ok (true, e, ⟨if wantN then some r.energies.length else none, a, b⟩)
end Polycap.Get
