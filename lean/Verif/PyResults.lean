import Verif.PyApi
import Verif.Memory

/-!
# Reading results and leaks from Python (`/repo/python/polycap.pyx:364-730, 743-822, 893-906, 943-983`)

`TransmissionEfficiencies` and `Photon` keep the arrays the C getters hand out and release them in `__dealloc__`.  The properties are
generators; reading one is `list(object.property)`.
-/
namespace Polycap.Py
open CNum

/-! ## `TransmissionEfficiencies` -/

variable {α : Type} [CNum α]

/-- the properties, polycap.pyx:471-695 -/
inductive Field where
  | extleaks | intleaks
  | exitCoords | exitDirection | exitElecv | nRefl | exitWeights | dTravel
  | startCoords | startDirection | startElecv | srcStartCoords
  deriving DecidableEq, Repr

/-- The object, polycap.pyx:366-387: `r` the C results, the counters and the cached arrays (`Cell.null`: NULL).  `lost`: how many cached arrays were
overwritten without being released. -/
structure TEObj (α : Type) where
  r : TE α
  nExt : Nat
  ext : Get.Cell (List (Get.GLeak α))
  nInt : Nat
  int : Get.Cell (List (Get.GLeak α))
  nStart : Nat
  nExit : Nat
  nEnergies : Nat
  startC : Get.Cell (List (V3 α))
  startD : Get.Cell (List (V3 α))
  startE : Get.Cell (List (V3 α))
  srcC : Get.Cell (List (V3 α))
  exitC : Get.Cell (List (V3 α))
  exitD : Get.Cell (List (V3 α))
  exitE : Get.Cell (List (V3 α))
  refl : Get.Cell (List Int)
  travel : Get.Cell (List α)
  weights : Get.Cell (List (List α))
  lost : Nat

/-- `__cinit__`, polycap.pyx:389-408, and `rv._trans_eff = trans_eff` (703-704).  `_n_energies` is set by Cython to 0. -/
def teNew (r : TE α) : TEObj α :=
  ⟨r, 0, .null, 0, .null, 0, 0, 0, .null, .null, .null, .null, .null, .null, .null, .null, .null, .null, 0⟩

/-- a variable passed to a C getter by address -/
def put {β : Type} (new old : Get.Cell β) : Get.Cell β :=
  match new with
  | .untouched => old
  | c => c

def putN (new : Option Nat) (old : Nat) : Nat := new.getD old

/-- the old array is lost when the variable is assigned -/
def loses {β : Type} (new old : Get.Cell β) : Nat :=
  match new, old with
  | .untouched, _ => 0
  | _, .raw => 1
  | _, .arr _ => 1
  | _, _ => 0

def isNull {β : Type} : Get.Cell β → Bool
  | .null => true
  | _ => false

/-- `polycap_transmission_efficiencies_get_exit_data(self._trans_eff, &self._n_exit, ...)`, polycap.pyx:518 -/
def loadExit (ok : Nat → Bool) (o : TEObj α) : Out (EArg × TEObj α) := do
  let (_, e, x) ← Get.getExit ok (some (some o.r)) (some none)
  .ok (e, { o with
    nExit := putN x.nExit o.nExit, nEnergies := putN x.nEnergies o.nEnergies
    exitC := put x.coords o.exitC, exitD := put x.dir o.exitD, exitE := put x.elec o.exitE
    refl := put x.nRefl o.refl, travel := put x.dTravel o.travel, weights := put x.weights o.weights
    lost := o.lost + loses x.coords o.exitC + loses x.dir o.exitD + loses x.elec o.exitE + loses x.nRefl o.refl + loses x.dTravel o.travel
      + loses x.weights o.weights })

/-- `polycap_transmission_efficiencies_get_start_data(...)`, polycap.pyx:634 -/
def loadStart (ok : Nat → Bool) (o : TEObj α) : Out (EArg × TEObj α) := do
  let (_, e, x) ← Get.getStart ok (some (some o.r)) (some none)
  .ok (e, { o with
    nStart := putN x.nStart o.nStart, nExit := putN x.nExit o.nExit
    startC := put x.coords o.startC, startD := put x.dir o.startD, startE := put x.elec o.startE, srcC := put x.src o.srcC
    lost := o.lost + loses x.coords o.startC + loses x.dir o.startD + loses x.elec o.startE + loses x.src o.srcC })

/-- polycap.pyx:480 -/
def loadExt (ok : Nat → Bool) (o : TEObj α) : Out (EArg × TEObj α) := do
  let (_, e, x) ← Get.getExt ok (some (some o.r)) (some none)
  .ok (e, { o with nExt := putN x.nLeaks o.nExt, ext := put x.leaks o.ext, lost := o.lost + loses x.leaks o.ext })

/-- polycap.pyx:499 -/
def loadInt (ok : Nat → Bool) (o : TEObj α) : Out (EArg × TEObj α) := do
  let (_, e, x) ← Get.getInt ok (some (some o.r)) (some none)
  .ok (e, { o with nInt := putN x.nLeaks o.nInt, int := put x.leaks o.int, lost := o.lost + loses x.leaks o.int })

/-- what a property gives: a list of values, nothing, an exception, or values read from memory that was never (completely) written -/
inductive Got (α : Type) where
  | leaks (l : List (Get.GLeak α))
  | vectors (l : List (V3 α))
  | counts (l : List Int)
  | numbers (l : List α)
  | rows (l : List (List α))
  | empty
  | raised (e : Exc)
  | unwritten

/-- the loop `for i in range(n): yield ...` over a cached array: `none` is a NULL or too short array -/
def yields {β : Type} (n : Nat) (c : Get.Cell (List β)) (mk : List β → Got α) : Out (Got α) :=
  match c with
  | .arr xs => if n ≤ xs.length then .ok (mk (xs.take n)) else .ub
  | .raw => .ok .unwritten
  | _ => if n = 0 then .ok (mk []) else .ub

/-- `if cell == NULL: load; polycap_set_exception(error)`, then `if cell != NULL: yield ... else: return None` -/
def readCell {β : Type} (cell : TEObj α → Get.Cell (List β)) (load : TEObj α → Out (EArg × TEObj α)) (mk : TEObj α → List β → Got α) (o : TEObj α) :
    Out (Got α × TEObj α) :=
  if isNull (cell o) then do
    let (e, o) ← load o
    match e with
    | some (some c) => .ok (.raised (excOf c), o)
    | _ => if isNull (cell o) then .ok (.empty, o) else do
      let g ← yields o.nExit (cell o) (mk o)
      .ok (g, o)
  else do
    let g ← yields o.nExit (cell o) (mk o)
    .ok (g, o)

/-- `if n == 0: load; polycap_set_exception(error)`, then `if n > 0: yield ... else: return None`, polycap.pyx:471-507 -/
def readLeaks (cnt : TEObj α → Nat) (cell : TEObj α → Get.Cell (List (Get.GLeak α))) (load : TEObj α → Out (EArg × TEObj α)) (o : TEObj α) :
    Out (Got α × TEObj α) :=
  if cnt o = 0 then do
    let (e, o) ← load o
    match e with
    | some (some c) => .ok (.raised (excOf c), o)
    | _ => if 0 < cnt o then (do
        let g ← yields (cnt o) (cell o) .leaks
        .ok (g, o)) else .ok (.empty, o)
  else do
    let g ← yields (cnt o) (cell o) .leaks
    .ok (g, o)

/-- polycap.pyx:596-604: of every row `_n_energies` doubles are copied -/
def rowsGot (n : Nat) (ws : List (List α)) : Got α :=
  if ws.all (fun w => n ≤ w.length) then .rows (ws.map (·.take n)) else .unwritten

/-- `list(object.property)`, polycap.pyx:471-695 -/
def readField (ok : Nat → Bool) (f : Field) (o : TEObj α) : Out (Got α × TEObj α) :=
  match f with
  | .extleaks => readLeaks (·.nExt) (·.ext) (loadExt ok) o
  | .intleaks => readLeaks (·.nInt) (·.int) (loadInt ok) o
  | .exitCoords => readCell (·.exitC) (loadExit ok) (fun _ => .vectors) o
  | .exitDirection => readCell (·.exitD) (loadExit ok) (fun _ => .vectors) o
  | .exitElecv => readCell (·.exitE) (loadExit ok) (fun _ => .vectors) o
  | .nRefl => readCell (·.refl) (loadExit ok) (fun _ => .counts) o
  | .exitWeights => readCell (·.weights) (loadExit ok) (fun o => rowsGot o.nEnergies) o
  | .dTravel => readCell (·.travel) (loadExit ok) (fun _ => .numbers) o
  | .startCoords => readCell (·.startC) (loadStart ok) (fun _ => .vectors) o
  | .startDirection => readCell (·.startD) (loadStart ok) (fun _ => .vectors) o
  | .startElecv => readCell (·.startE) (loadStart ok) (fun _ => .vectors) o
  | .srcStartCoords => readCell (·.srcC) (loadStart ok) (fun _ => .vectors) o

/-- a sequence of reads; `ok k n`: request number `n` of the `k`-th read (from the end) succeeds -/
def readFields (ok : Nat → Nat → Bool) : List Field → TEObj α → Out (List (Got α) × TEObj α)
  | [], o => .ok ([], o)
  | f :: fs, o => do
    let (g, o) ← readField (ok fs.length) f o
    let (gs, o) ← readFields ok fs o
    .ok (g :: gs, o)

/-- How many C arrays `__dealloc__` (polycap.pyx:410-447) releases, not counting the C results themselves; `none`: it follows a pointer that is NULL or
was never written.  A leak is two blocks, a row of weights one. -/
def deallocCount (o : TEObj α) : Option Nat := do
  let leaks (n : Nat) (c : Get.Cell (List (Get.GLeak α))) : Option Nat :=
    if 0 < n then (match c with
      | .arr _ => some (1 + 2 * n)
      | _ => none) else some 0
  let one {β : Type} (c : Get.Cell β) : Nat := if isNull c then 0 else 1
  let a ← leaks o.nExt o.ext
  let b ← leaks o.nInt o.int
  let w ← (match o.weights with
    | .null => some 0
    | .arr _ => some (1 + o.nExit)
    | _ => none)
  some (a + b + w + one o.startC + one o.startD + one o.startE + one o.srcC + one o.exitC + one o.exitD + one o.exitE + one o.refl + one o.travel)

/-- `TransmissionEfficiencies.create`, polycap.pyx:699-730: the object and what `data` (464-469) returns -/
def teCreate (ok : Nat → Bool) (r : TE α) : Out (TEObj α × List α × List α) := do
  let (_, _, d) ← Get.getData ok (some r) true true true (some none)
  match d.energies, d.effs with
  | .arr en, .arr ef => .ok (teNew r, en, ef)
  | _, _ => .ub

/-! ## Leaks of a `Photon` -/

section photon
open CM Mem Memo
omit [CNum α]

/-- a `Leak` object, polycap.pyx:765-785 -/
structure PyLeak (α : Type) where
  coords : V3 α
  dir : V3 α
  elecv : V3 α
  weight : List α
  n_refl : Int

/-- `Leak.create`, polycap.pyx:764-786 -/
def leakCreate (q : Ptr) : CM (Block α) (Option (PyLeak α)) :=
  if q = none then pure none else do
  match ← load q with
  | .leak c d el ne w nr => do
    let xs ← loadArr w ne
    pure (some ⟨c, d, el, xs, nr⟩)
  | _ => ub

/-- `for i in range(n): leak = Leak.create(arr[i]); yield leak` -/
def createLoop (arr : Ptr) : Nat → Nat → CM (Block α) (List (Option (PyLeak α)))
  | _, 0 => pure []
  | i, k + 1 => do
    let q ← ptrAt arr i
    let x ← leakCreate q
    let xs ← createLoop arr (i + 1) k
    pure (x :: xs)

/-- members of the class `Photon`, polycap.pyx:826-831 -/
structure PhObj where
  p : Ptr
  ext : Ptr
  nExt : Nat
  int : Ptr
  nInt : Nat

/-- `__cinit__`, polycap.pyx:858-861 -/
def phNew (p : Ptr) : PhObj := ⟨p, none, 0, none, 0⟩

inductive LeakSeen (α : Type) where
  | leaks (l : List (Option (PyLeak α)))
  | empty
  | raised (e : Exc)

/-- the common part of `extleak_data` and `intleak_data`: the cache before (`n`, `arr`), and after -/
def leakProp (isExt : Bool) (p : Ptr) (n : Nat) (arr : Ptr) : CM (Block α) (LeakSeen α × Nat × Ptr) :=
  if n = 0 then do
    let r ← getLeakData isExt p (some none)
    let n' := r.n.getD n
    let arr' := r.leaks.getD arr
    match r.err with
    | some (some c) => pure (.raised (excOf c), n', arr')
    | _ => if 0 < n' then (do
        let xs ← createLoop arr' 0 n'
        pure (.leaks xs, n', arr')) else pure (.empty, n', arr')
  else do
    let xs ← createLoop arr 0 n
    pure (.leaks xs, n, arr)

/-- `Photon.extleak_data` (polycap.pyx:943-959), `Photon.intleak_data` (961-983) -/
def readPhotonLeaks (isExt : Bool) (o : PhObj) : CM (Block α) (LeakSeen α × PhObj) :=
  if o.p = none then pure (.empty, o) else
  if isExt then do
    let (s, n, a) ← leakProp true o.p o.nExt o.ext
    pure (s, { o with nExt := n, ext := a })
  else do
    let (s, n, a) ← leakProp false o.p o.nInt o.int
    pure (s, { o with nInt := n, int := a })

/-- polycap.pyx:898-901, 903-906 -/
def freeCache (arr : Ptr) (n : Nat) : CM (Block α) Unit :=
  if 0 < n then do
    freeLeaks arr 0 n
    free arr
  else pure ()

/-- `Photon.__dealloc__`, polycap.pyx:893-906 -/
def photonDealloc (o : PhObj) : CM (Block α) Unit := do
  if o.p = none then pure () else photonFree o.p
  freeCache o.ext o.nExt
  freeCache o.int o.nInt

/-- a sequence of reads -/
def readAllLeaks : List Bool → PhObj → CM (Block α) (List (LeakSeen α) × PhObj)
  | [], o => pure ([], o)
  | b :: bs, o => do
    let (s, o) ← readPhotonLeaks b o
    let (ss, o) ← readAllLeaks bs o
    pure (s :: ss, o)
end photon
end Polycap.Py
