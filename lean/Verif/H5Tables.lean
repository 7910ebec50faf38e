import Verif.Lib
import Verif.Geom

/-!
# HDF5 error translation, `/repo/src/polycap-transmission-efficiencies.c:30-241`

HDF5's `H5E_...` numbers are run-time values; they are a parameter here (`Ids`).
Simplifications: `malloc`/`realloc` of the tables succeed; `strdup` of the description succeeds; of an
error only the code is kept; `tables_mutex` makes `tables_init` atomic, so calls of several threads are a
sequence of calls.
-/
namespace Polycap.H5

/-- major error numbers used (149-167) -/
inductive Maj where
  | CACHE | RESOURCE | INTERNAL | DATATYPE | DATASET | ARGS | REFERENCE | SYM
  deriving DecidableEq

/-- minor error numbers used (98-168) -/
inductive Mnr where
  | SEEKERROR | READERROR | WRITEERROR | CLOSEERROR | OVERFLOW | FCNTL | FILEEXISTS | FILEOPEN | CANTCREATE
  | CANTOPENFILE | CANTCLOSEFILE | NOTHDF5 | BADFILE | TRUNCATED | MOUNT | NOFILTER | CALLBACK | CANAPPLY
  | SETLOCAL | NOENCODER | BADGROUP | BADSELECT | UNINITIALIZED | UNSUPPORTED | NOTFOUND | CANTINSERT
  | BADTYPE | BADRANGE | BADVALUE | EXISTS | ALREADYEXISTS | CANTCONVERT | CANTDELETE | CANTOPENOBJ | CANTMOVE
  | CANTINIT | SYSERRSTR | BADATOM | BADID
  deriving DecidableEq

/-- The HDF5 the library is built with: version 1.12.0 or later (`H5_VERSION_GE(1, 12, 0)`), version 1.13.0
or earlier (`H5_VERSION_LE(1, 13, 0)`), and the values of the `H5E_` globals. -/
structure Ids where
  ge112 : Bool
  le113 : Bool
  maj : Maj → Int
  mnr : Mnr → Int

/-- A growing table: entries and allocated size (50-56). -/
structure Tab (ε : Type) where
  items : List ε
  cap : Nat

/-- `append_minor_table_entry`, `append_exact_table_entry` (58-82); a write past the allocated size is
undefined behaviour -/
def Tab.append {ε : Type} (t : Tab ε) (x : ε) : Out (Tab ε) :=
  let cap := if t.items.length = t.cap then t.cap * 2 else t.cap
  if t.items.length < cap then .ok ⟨t.items ++ [x], cap⟩ else .ub

def Tab.appendAll {ε : Type} : Tab ε → List ε → Out (Tab ε)
  | t, [] => .ok t
  | t, x :: xs => do
    let t ← t.append x
    t.appendAll xs

/-- the entries of the minor table, in order (98-132) -/
def minorList : List (Mnr × Code) :=
  [(.SEEKERROR, .io), (.READERROR, .io), (.WRITEERROR, .io), (.CLOSEERROR, .io), (.OVERFLOW, .io), (.FCNTL, .io),
   (.FILEEXISTS, .io), (.FILEOPEN, .io), (.CANTCREATE, .io), (.CANTOPENFILE, .io), (.CANTCLOSEFILE, .io), (.NOTHDF5, .io),
   (.BADFILE, .invalidArgument), (.TRUNCATED, .io), (.MOUNT, .io), (.NOFILTER, .io), (.CALLBACK, .io), (.CANAPPLY, .io),
   (.SETLOCAL, .io), (.NOENCODER, .io), (.BADGROUP, .invalidArgument), (.BADSELECT, .invalidArgument),
   (.UNINITIALIZED, .invalidArgument), (.UNSUPPORTED, .unsupported), (.NOTFOUND, .invalidArgument),
   (.CANTINSERT, .invalidArgument), (.BADTYPE, .type), (.BADRANGE, .invalidArgument), (.BADVALUE, .invalidArgument),
   (.EXISTS, .invalidArgument), (.ALREADYEXISTS, .invalidArgument), (.CANTCONVERT, .type), (.CANTDELETE, .invalidArgument),
   (.CANTOPENOBJ, .invalidArgument), (.CANTMOVE, .invalidArgument)]

/-- the entry added to the minor table while the exact table is built (163-169) -/
def minorLate (I : Ids) : Mnr × Code := (if I.le113 then .BADATOM else .BADID, .invalidArgument)

/-- the entries of the exact table, in order (148-170) -/
def exactList (I : Ids) : List ((Maj × Mnr) × Code) :=
  [((.CACHE, .BADVALUE), .io), ((.RESOURCE, .CANTINIT), .io), ((.INTERNAL, .SYSERRSTR), .io), ((.DATATYPE, .CANTINIT), .type),
   ((.DATASET, .CANTINIT), .invalidArgument), ((.ARGS, .CANTINIT), .type), ((.ARGS, .BADTYPE), .invalidArgument),
   ((.REFERENCE, .CANTINIT), .invalidArgument)] ++
  (if I.ge112 then [((.DATASET, .CANTCREATE), .invalidArgument)] else []) ++
  [((.SYM, if I.le113 then .CANTINIT else .CANTCREATE), .invalidArgument)]

/-- table entries as stored: numbers, not names -/
def minorNum (I : Ids) (x : Mnr × Code) : Int × Code := (I.mnr x.1, x.2)
def exactNum (I : Ids) (x : (Maj × Mnr) × Code) : (Int × Int) × Code := ((I.maj x.1.1, I.mnr x.1.2), x.2)

/-- the static tables (50-56); initially NULL with length and capacity 0 -/
structure Tables where
  minor : Tab (Int × Code)
  exact : Tab ((Int × Int) × Code)

def Tables.initial : Tables := ⟨⟨[], 0⟩, ⟨[], 0⟩⟩

/-- `tables_init` (84-178) -/
def tablesInit (I : Ids) (T : Tables) : Out Tables := do
  let m ← if T.minor.items.length = 0 then Tab.appendAll ⟨[], 1⟩ (minorList.map (minorNum I)) else .ok T.minor
  if T.exact.items.length = 0 then
    let e ← Tab.appendAll ⟨[], 1⟩ ((exactList I).map (exactNum I))
    let m ← m.append (minorNum I (minorLate I))
    .ok ⟨m, e⟩
  else .ok ⟨m, T.exact⟩

/-- one record of the HDF5 error stack (`H5E_error2_t`), as far as it is used: the numbers, and whether it
has a description -/
structure ErrRec where
  maj : Int
  mnr : Int
  desc : Bool

/-- search of a table from the start (210-222) -/
def findCode {κ : Type} [DecidableEq κ] (k : κ) : List (κ × Code) → Option Code
  | [] => none
  | x :: xs => if x.1 = k then some x.2 else findCode k xs

/-- the error stack at a failure: the records in the order of the upward walk, and whether the two
`H5Ewalk` calls succeed -/
structure Stack where
  recs : List ErrRec
  walk1 : Bool
  walk2 : Bool

/-- `set_exception` (195-241).  `walk_cb` (185-193) overwrites the same record for each stack entry, so the
last one visited remains.  With an empty stack `err.n` is read uninitialised. -/
def setException (T : Tables) (s : Stack) (e : EArg) : Out EArg :=
  match e with
  | none => .ok none
  | some _ =>
    if !s.walk1 then .ok (e.set .runtime)
    else
      match s.recs.getLast? with
      | none => .ub
      | some r =>
        let c := Code.runtime
        let c := (findCode r.mnr T.minor.items).getD c
        let c := (findCode (r.maj, r.mnr) T.exact.items).getD c
        if !r.desc then .ok (e.set .runtime)
        else if !s.walk2 then .ok (e.set .runtime)
        else
          match s.recs.head? with
          | none => .ub
          | some b => if !b.desc then .ok (e.set .runtime) else .ok (e.set c)

/-- any number of `tables_init` calls -/
def initTimes (I : Ids) : Nat → Out Tables
  | 0 => .ok Tables.initial
  | k + 1 => do
    let T ← initTimes I k
    tablesInit I T

end Polycap.H5
