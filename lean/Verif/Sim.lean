import Verif.Source

/-!
# `polycap_source_get_transmission_efficiencies`, polycap-source.c:448-1087

The parallel region is a transition system: shared memory, one local state per thread, and steps of
single threads.  A step is an `omp critical` section, an `omp single` section, a pass of the `do ... while`
body, or the code between these; between two synchronisation points a thread writes shared memory only
at its own slot `j` and its own `thread_id`, which is why it is enough to interleave these steps.

Simplifications: allocations succeed; the counters (`int64_t`) do not overflow; `printf` has no effect
except for the arithmetic in its arguments; the leak weights are values, so releasing the copies is not
shown.  The `omp for` distributes the slots in an arbitrary way.
-/
namespace Polycap
open CNum

variable {α : Type} [CNum α]

/-- One photon of the simulation: where it came from, what `polycap_photon_launch` returned and left behind. -/
structure Attempt (α : Type) where
  code : Int
  src : V3 α
  ph : Photon α
  wts : WOut α

/-- polycap-source.c:747-750: generate a photon with the thread's generator `u` at position `n` and launch it. -/
def attempt (lib : Xray α) (S : Src α) (D : Descr α) (leak : Bool) (fuel k : Nat) (u : Nat → α) (n : Nat) :
    Out (Attempt α × Nat) := do
  let x ← getPhoton S D u fuel n
  let y ← launch lib (some D) leak fuel k (some x.1.photon) (some S.energies) true
  match y with
  | (c, w, some P) => .ok (⟨c, x.1.src, P, w⟩, x.2)
  | (_, _, none) => .ub

/-- extrapolation of the exit coordinates to the end of the optic, polycap-source.c:765-767, 900-905
(`a + b * (z - c) / d` is evaluated from the left) -/
def exitAt (p : Profile α) (P : Photon α) : V3 α :=
  ⟨P.exitC.x +. P.exitD.x *. (p.z p.nmax -. P.exitC.z) /. P.exitD.z,
   P.exitC.y +. P.exitD.y *. (p.z p.nmax -. P.exitC.z) /. P.exitD.z,
   P.exitC.z +. P.exitD.z *. (p.z p.nmax -. P.exitC.z) /. P.exitD.z⟩

/-- `iesc` after the exit window check, polycap-source.c:762-777 -/
def simCode (D : Descr α) (a : Attempt α) : Int :=
  if a.code = 1 then
    let v := exitAt D.prof a.ph
    if nShells (α := α) D.n_cap = 0 then
      if sqrt (v.x *. v.x +. v.y *. v.y) >. D.prof.ext D.prof.nmax then 0 else 1
    else withinPcBoundary (D.prof.ext D.prof.nmax) v.x v.y
  else a.code

/-- `while(iesc == 0 || iesc == 2 || iesc == -2 || iesc == -1)`, polycap-source.c:884 -/
def simRetry (c : Int) : Bool := decide (c = 0 ∨ c = 2 ∨ c = -2 ∨ c = -1)

/-- projection of an electric vector, polycap-source.c:788-797 (start) and 909-918 (exit: the angle is that
of the start vectors) -/
def elecRound (E0 d0 E d : V3 α) : α × α :=
  let cosalpha := scalar E0 d0
  let c_ae := lit 1 /. sin (acos cosalpha)
  let c_be := lit (-1) *. c_ae *. cosalpha
  let t := vnorm (⟨E.x *. c_ae +. d.x *. c_be, E.y *. c_ae +. d.y *. c_be, E.z *. c_ae +. d.z *. c_be⟩ : V3 α)
  (ofInt (roundI t.x), ofInt (roundI t.y))

/-- what is stored in slot `j` of the start arrays, polycap-source.c:781-797 -/
structure StartRec (α : Type) where
  srcX : α
  srcY : α
  x : α
  y : α
  dirX : α
  dirY : α
  elecX : α
  elecY : α

def startRec (a : Attempt α) : StartRec α :=
  let e := elecRound a.ph.startE a.ph.startD a.ph.startE a.ph.startD
  ⟨a.src.x, a.src.y, a.ph.startC.x, a.ph.startC.y, a.ph.startD.x, a.ph.startD.y, e.1, e.2⟩

/-- what is stored in slot `j` of the exit arrays, polycap-source.c:900-923 -/
structure ExitRec (α : Type) where
  x : α
  y : α
  z : α
  dirX : α
  dirY : α
  elecX : α
  elecY : α
  n_refl : Int
  d_travel : α

def exitRec (p : Profile α) (P : Photon α) : ExitRec α :=
  let v := exitAt p P
  let e := elecRound P.startE P.startD P.exitE P.exitD
  ⟨v.x, v.y, v.z, P.exitD.x, P.exitD.y, e.1, e.2, P.i_refl,
   P.d_travel +. sqrt ((v.x -. P.exitC.x) *. (v.x -. P.exitC.x) +. (v.y -. P.exitC.y) *. (v.y -. P.exitC.y) +.
     (p.z p.nmax -. P.exitC.z) *. (p.z p.nmax -. P.exitC.z))⟩

/-- what is stored of a leak, polycap-source.c:1007-1030 (`elecX`, `elecY` only for internal leaks) -/
structure LeakRec (α : Type) where
  coords : V3 α
  dirX : α
  dirY : α
  elec : Option (α × α)
  n_refl : Int

def extRec (l : Leak α) : LeakRec α := ⟨l.coords, l.dir.x, l.dir.y, none, l.n_refl⟩
def intRec (l : Leak α) : LeakRec α := ⟨l.coords, l.dir.x, l.dir.y, some (l.elecv.x, l.elecv.y), l.n_refl⟩

/-! ## Growing arrays of leaks -/

/-- a thread's array of leak pointers: contents and allocated size (polycap-source.c:709-724) -/
structure Buf (α : Type) where
  items : List (Leak α)
  cap : Nat

def Buf.empty : Buf α := ⟨[], 0⟩

/-- `polycap_leak_new` on existing leaks: reads `ne` weights of each; reading past the end is undefined -/
def copyLeaks (ne : Nat) (ls : List (Leak α)) : Out (List (Leak α)) :=
  if ls.all (fun l => decide (ne ≤ l.weight.length)) then .ok (ls.map (fun l => { l with weight := l.weight.take ne })) else .ub

/-- new allocated size when `n` entries are needed, polycap-source.c:805-812, 928-946 -/
def growCap (cap n : Nat) : Nat :=
  if n > cap then (if cap = 0 then n else if cap * 2 < n then n else cap * 2) else cap

/-- polycap-source.c:848-858: the temporary array is released once its leaks have been passed on -/
def Buf.drain (b : Buf α) : Buf α := if b.items.length > 0 then Buf.empty else b

/-- polycap-source.c:803-834, 926-961: grow the array if needed, then write the copies behind the entries
already there; writing past the allocated size is undefined -/
def Buf.append (ne : Nat) (b : Buf α) (ls : List (Leak α)) : Out (Buf α) := do
  let n := b.items.length + ls.length
  let cs ← copyLeaks ne ls
  if n ≤ growCap b.cap n then .ok ⟨b.items ++ cs, growCap b.cap n⟩ else .ub

/-- polycap-source.c:803, 819: only if there is something to add -/
def Buf.appendIf (ne : Nat) (b : Buf α) (ls : List (Leak α)) : Out (Buf α) :=
  if ls.length > 0 then b.append ne ls else .ok b

/-! ## States -/

/-- where a thread is -/
inductive Pc (α : Type) where
  /-- in the do-while loop of slot `j`, with `rest` still to do -/
  | work (j : Nat) (rest : List Nat)
  /-- photon `a` reached the exit of the optic -/
  | save (j : Nat) (a : Attempt α) (rest : List Nat)
  /-- before the critical section of polycap-source.c:963-966 -/
  | refl (n : Int) (rest : List Nat)
  /-- at the barrier that ends the `omp for` -/
  | forEnd
  /-- before the critical section of polycap-source.c:973-980 -/
  | sum
  /-- at the barrier of polycap-source.c:983 -/
  | barrier
  /-- before the single section of polycap-source.c:984-1004 -/
  | single
  /-- at the barrier that ends it -/
  | singleEnd
  /-- before the critical section of polycap-source.c:1005-1031 -/
  | copy
  | done

/-- order of the synchronisation points -/
def Pc.rank : Pc α → Nat
  | .work _ _ => 0
  | .save _ _ _ => 0
  | .refl _ _ => 0
  | .forEnd => 1
  | .sum => 2
  | .barrier => 3
  | .single => 4
  | .singleEnd => 5
  | .copy => 6
  | .done => 7

/-- private variables of a thread (polycap-source.c:699-741); `hist`: the photons it has simulated so far
with the slot they were for (not in the program, used to state the theorems) -/
structure Thr (α : Type) where
  pc : Pc α
  /-- position in the thread's random stream -/
  pos : Nat
  /-- `i`, the progress counter -/
  prog : Nat
  weights : List α
  ext : Buf α
  int : Buf α
  extT : Buf α
  intT : Buf α
  hist : List (Nat × Attempt α)

/-- shared variables (polycap-source.c:450-457, `efficiencies->images`); an array element is `none` until
written; `writes j`: how often slot `j` of the exit arrays was written (not in the program) -/
structure Shared (α : Type) where
  start : Nat → Option (StartRec α)
  exit : Nat → Option (ExitRec α)
  exitW : Nat → Option α
  writes : Nat → Nat
  iexit : Nat → Nat
  notEntered : Nat → Nat
  notTransmitted : Nat → Nat
  irefl : Int
  sumW : List α
  iExt : Nat
  iInt : Nat
  /-- the single section has been executed: the leak arrays have room for `iExt`, `iInt` events -/
  alloc : Option (Nat × Nat)
  extN : Nat
  intN : Nat
  extL : Nat → Option (LeakRec α)
  extW : Nat → Option α
  intL : Nat → Option (LeakRec α)
  intW : Nat → Option α

structure St (α : Type) where
  sh : Shared α
  thr : Nat → Thr α

/-- what a simulation depends on: number of photons and threads, energies, leak flag, description, and what
thread `t` gets from its random stream at a position -/
structure Cfg (α : Type) where
  n : Nat
  T : Nat
  ne : Nat
  leak : Bool
  D : Descr α
  att : Nat → Nat → Out (Attempt α × Nat)

/-- update one element -/
def upd1 {β : Type} (f : Nat → β) (i : Nat) (v : β) : Nat → β := fun x => if x = i then v else f x

/-- `arr[l + j*ne] = ws[l]` for `l < ne` (polycap-source.c:894-896, 1014-1015, 1027-1028) -/
def putRow (f : Nat → Option α) (ne j : Nat) (ws : List α) : Nat → Option α :=
  fun x => if j * ne ≤ x ∧ x < (j + 1) * ne then ws[x - j * ne]? else f x

/-- the next slot, or the end of the `omp for` -/
def nextPc : List Nat → Pc α
  | [] => .forEnd
  | j :: rest => .work j rest

/-! ## Steps -/

/-- polycap-source.c:758-761 -/
def countCode (t : Nat) (a : Attempt α) (sh : Shared α) : Shared α :=
  { sh with notTransmitted := if a.code = 0 then upd1 sh.notTransmitted t (sh.notTransmitted t + 1) else sh.notTransmitted
            notEntered := if a.code = 2 then upd1 sh.notEntered t (sh.notEntered t + 1) else sh.notEntered }

/-- polycap-source.c:799-834: keep the leaks of a photon that will be replaced -/
def keepLeaks (C : Cfg α) (iesc : Int) (a : Attempt α) (th : Thr α) : Out (Thr α) :=
  if C.leak ∧ (iesc = 0 ∨ iesc = 2) then do
    let e ← th.extT.appendIf C.ne a.ph.ext
    let i ← th.intT.appendIf C.ne a.ph.int
    .ok { th with extT := e, intT := i }
  else .ok th

/-- polycap-source.c:836-878: pass the kept leaks on to the photon that came out -/
def passLeaks (C : Cfg α) (a : Attempt α) (th : Thr α) : Out (Attempt α × Thr α) :=
  if C.leak then do
    let ce ← copyLeaks C.ne th.extT.items
    let ci ← copyLeaks C.ne th.intT.items
    .ok ({ a with ph := { a.ph with ext := a.ph.ext ++ ce, int := a.ph.int ++ ci } },
         { th with extT := th.extT.drain, intT := th.intT.drain })
  else .ok (a, th)

def WOut.isUntouched : WOut α → Bool
  | .untouched => true
  | _ => false

/-- one pass of the do-while body for slot `j`, polycap-source.c:746-884 -/
def workStep (C : Cfg α) (t j : Nat) (rest : List Nat) (th : Thr α) (sh : Shared α) (a : Attempt α) (pos : Nat) :
    Out (Thr α × Shared α) :=
  let iesc := simCode C.D a
  let sh := countCode t a sh
  let th := { th with pos := pos, hist := th.hist ++ [(j, a)] }
  if iesc = 1 then
    if C.n ≤ j then .ub else do
    let sh := { sh with iexit := upd1 sh.iexit t (sh.iexit t + 1), start := upd1 sh.start j (some (startRec a)) }
    let x ← passLeaks C a th
    .ok ({ x.2 with pc := .save j x.1 rest }, sh)
  else do
    let th ← keepLeaks C iesc a th
    -- the photon and its weights are released; a weight array that was never allocated cannot be
    if a.wts.isUntouched then .ub
    else if simRetry iesc then .ok ({ th with pc := .work j rest }, sh)
    else .ub -- the loop is left with a released photon

/-- polycap-source.c:886: thread 0 reports progress -/
def reports (C : Cfg α) (t prog : Nat) : Bool :=
  decide (t = 0) && (ofInt prog /. (ofInt C.n /. ofInt C.T /. lit 10) >=. (lit 1 : α))

/-- polycap-source.c:888, 890 -/
def nextProg (C : Cfg α) (t prog : Nat) : Nat := (if reports C t prog then 0 else prog) + 1

/-- polycap-source.c:886-961: progress report (with `(j*100)/(n_photons/max_threads)` in `int` arithmetic),
weights, exit record, leaks of slot `j` -/
def saveStep (C : Cfg α) (t j : Nat) (a : Attempt α) (rest : List Nat) (th : Thr α) (sh : Shared α) :
    Out (Thr α × Shared α) :=
  if reports C t th.prog && decide (C.n / C.T = 0 ∨ j * 100 ≥ 2147483648) then .ub else
  match a.wts with
  | .filled ws =>
    if ws.length < C.ne ∨ C.n ≤ j then .ub else
    let ws := ws.take C.ne
    let sh := { sh with exitW := putRow sh.exitW C.ne j ws, exit := upd1 sh.exit j (some (exitRec C.D.prof a.ph)),
                        writes := upd1 sh.writes j (sh.writes j + 1) }
    let th := { th with weights := List.zipWith (· +. ·) th.weights ws, prog := nextProg C t th.prog, pc := .refl a.ph.i_refl rest }
    if C.leak then do
      let e ← th.ext.append C.ne a.ph.ext
      let i ← th.int.append C.ne a.ph.int
      .ok ({ th with ext := e, int := i }, sh)
    else .ok (th, sh)
  | _ => .ub

/-- one leak written at the shared counter, polycap-source.c:1007-1017; past the allocated size: undefined -/
def putExt (ne : Nat) (sh : Shared α) (l : Leak α) : Out (Shared α) :=
  match sh.alloc with
  | none => .ub
  | some (ne', _) =>
    if sh.extN < ne' ∧ ne ≤ l.weight.length then
      .ok { sh with extL := upd1 sh.extL sh.extN (some (extRec l)), extW := putRow sh.extW ne sh.extN (l.weight.take ne),
                    extN := sh.extN + 1 }
    else .ub

/-- polycap-source.c:1018-1030 -/
def putInt (ne : Nat) (sh : Shared α) (l : Leak α) : Out (Shared α) :=
  match sh.alloc with
  | none => .ub
  | some (_, ni') =>
    if sh.intN < ni' ∧ ne ≤ l.weight.length then
      .ok { sh with intL := upd1 sh.intL sh.intN (some (intRec l)), intW := putRow sh.intW ne sh.intN (l.weight.take ne),
                    intN := sh.intN + 1 }
    else .ub

def putAll (put : Shared α → Leak α → Out (Shared α)) : Shared α → List (Leak α) → Out (Shared α)
  | sh, [] => .ok sh
  | sh, l :: ls => do
    let sh' ← put sh l
    putAll put sh' ls

/-- result of letting a thread run: it waits (or is caught in an endless loop of the generator or the
tracer), does something undefined, or reaches the next state -/
inductive Res (α : Type) where
  | blocked
  | ub
  | next (s : St α)

def St.set (s : St α) (t : Nat) (x : Thr α × Shared α) : St α := ⟨x.2, upd1 s.thr t x.1⟩

def Res.of (s : St α) (t : Nat) : Out (Thr α × Shared α) → Res α
  | .ok x => .next (s.set t x)
  | .ub => .ub
  | .fuel => .blocked

/-- all threads have reached the synchronisation point of rank `r` -/
def allAt (C : Cfg α) (s : St α) (r : Nat) : Bool := decide (∀ i < C.T, r ≤ (s.thr i).pc.rank)

/-- One step of thread `t`. -/
def tstep (C : Cfg α) (t : Nat) (s : St α) : Res α :=
  let th := s.thr t
  let sh := s.sh
  match th.pc with
  | .work j rest =>
    Res.of s t (do let x ← C.att t th.pos; workStep C t j rest th sh x.1 x.2)
  | .save j a rest => Res.of s t (saveStep C t j a rest th sh)
  | .refl n rest => .next (s.set t ({ th with pc := nextPc rest }, { sh with irefl := sh.irefl + n }))
  | .forEnd => if allAt C s 1 then .next (s.set t ({ th with pc := .sum }, sh)) else .blocked
  | .sum =>
    let sh := { sh with sumW := List.zipWith (· +. ·) sh.sumW th.weights }
    let sh := if C.leak then { sh with iExt := sh.iExt + th.ext.items.length, iInt := sh.iInt + th.int.items.length } else sh
    .next (s.set t ({ th with pc := if C.leak then .barrier else .done }, sh))
  | .barrier => if allAt C s 3 then .next (s.set t ({ th with pc := .single }, sh)) else .blocked
  | .single =>
    match sh.alloc with
    | none => .next (s.set t ({ th with pc := .singleEnd }, { sh with alloc := some (sh.iExt, sh.iInt), extN := 0, intN := 0 }))
    | some _ => .next (s.set t ({ th with pc := .singleEnd }, sh))
  | .singleEnd => if allAt C s 5 then .next (s.set t ({ th with pc := .copy }, sh)) else .blocked
  | .copy =>
    Res.of s t (do
      let sh ← putAll (putExt C.ne) sh th.ext.items
      let sh ← putAll (putInt C.ne) sh th.int.items
      .ok ({ th with pc := .done }, sh))
  | .done => .blocked

/-- state at the start of the parallel region; `asg t`: the slots of thread `t` (polycap-source.c:743-745) -/
def initSt (C : Cfg α) (asg : Nat → List Nat) : St α where
  sh := ⟨fun _ => none, fun _ => none, fun _ => none, fun _ => 0, fun _ => 0, fun _ => 0, fun _ => 0, 0,
    List.replicate C.ne (lit 0), 0, 0, none, 0, 0, fun _ => none, fun _ => none, fun _ => none, fun _ => none⟩
  thr t := ⟨nextPc (asg t), 0, 0, List.replicate C.ne (lit 0), Buf.empty, Buf.empty, Buf.empty, Buf.empty, []⟩

/-- Any interleaving of the threads: states reachable in `k` steps. -/
inductive Reach (C : Cfg α) (asg : Nat → List Nat) : Nat → St α → Prop
  | start : Reach C asg 0 (initSt C asg)
  | step {k s t s'} (h : Reach C asg k s) (ht : t < C.T) (hs : tstep C t s = .next s') : Reach C asg (k + 1) s'

def St.finished (C : Cfg α) (s : St α) : Prop := ∀ t < C.T, (s.thr t).pc = .done

/-- What `omp for` guarantees: every slot goes to exactly one thread. -/
def Distributes (C : Cfg α) (asg : Nat → List Nat) : Prop :=
  ((List.range C.T).flatMap asg).Perm (List.range C.n)

/-! ## After the parallel region -/

/-- the returned `polycap_transmission_efficiencies` together with the source's open area, which the call
overwrites (polycap-source.c:1055-1078) -/
structure TE (α : Type) where
  energies : List α
  effs : List α
  openArea : α
  iStart : Nat
  iExit : Nat
  iExt : Nat
  iInt : Nat
  start : Nat → Option (StartRec α)
  exit : Nat → Option (ExitRec α)
  exitW : Nat → Option α
  extL : Nat → Option (LeakRec α)
  extW : Nat → Option α
  intL : Nat → Option (LeakRec α)
  intW : Nat → Option α

/-- `for(i=0; i < max_threads; i++) sum += arr[i]`, polycap-source.c:1055-1059 -/
def sumTo (f : Nat → Nat) : Nat → Nat
  | 0 => 0
  | k + 1 => sumTo f k + f k

def results (C : Cfg α) (energies : List α) (s : St α) : TE α :=
  let ie := sumTo s.sh.iexit C.T
  let ne := sumTo s.sh.notEntered C.T
  let nt := sumTo s.sh.notTransmitted C.T
  let oa : α := ofInt (ie + nt : Nat) /. ofInt (ie + ne + nt : Nat)
  { energies := energies
    effs := s.sh.sumW.map (fun w => w /. (ofInt ie +. ofInt nt) *. oa)
    openArea := oa, iStart := ie + ne + nt, iExit := ie, iExt := s.sh.iExt, iInt := s.sh.iInt
    start := s.sh.start, exit := s.sh.exit, exitW := s.sh.exitW
    extL := s.sh.extL, extW := s.sh.extW, intL := s.sh.intL, intW := s.sh.intW }

/-! ## The whole call -/

/-- the arguments of the call: source (with its energies: `none` if NULL) and description, `max_threads`,
`n_photons`, leak flag, whether a progress monitor was passed -/
structure SimArgs (α : Type) where
  source : Option (Src α × Option (Descr α))
  nullEnergies : Bool
  maxThreads : Int
  nPhotons : Int
  leak : Bool
  monitor : Bool

/-- polycap-source.c:459-489 -/
def simRejects (a : SimArgs α) : Bool :=
  match a.source with
  | none => true
  | some (S, d) => a.monitor || d.isNone || decide (S.energies.length < 1) || a.nullEnergies || S.energies.any energyBad ||
      decide (a.nPhotons < 1)

/-- polycap-source.c:492-494; `omp` = `omp_get_max_threads()` -/
def threadsUsed (maxThreads omp : Int) : Int := if maxThreads < 1 ∨ maxThreads > omp then omp else maxThreads

/-- the simulation run by an accepted call; `u t`: random stream of thread `t` -/
def simCfg (lib : Xray α) (S : Src α) (D : Descr α) (a : SimArgs α) (omp : Int) (u : Nat → Nat → α) (fuel k : Nat) : Cfg α where
  n := a.nPhotons.toNat
  T := (threadsUsed a.maxThreads omp).toNat
  ne := S.energies.length
  leak := a.leak
  D := D
  att t n := attempt lib S D a.leak fuel k (u t) n

/-- `polycap_source_get_transmission_efficiencies`: the possible outcomes.  `fuel` and `k` bound the loops
inside one photon; an outcome for some bounds is an outcome of the program.  `hu`: the external generator
behind `polycap_rng_uniform` (polycap-rng.c:84-86) returns numbers in [0,1). -/
inductive SimOutcome (lib : Xray α) (a : SimArgs α) (omp : Int) (e : EArg) : Option (TE α) → EArg → Prop
  | rejected (h : simRejects a = true) : SimOutcome lib a omp e none (e.set .invalidArgument)
  | ran (h : simRejects a = false) (S : Src α) (D : Descr α) (hs : a.source = some (S, some D)) (u : Nat → Nat → α)
      (hu : ∀ t i, (lit 0 <=. u t i) = true ∧ (u t i <. lit 1) = true) (fuel k : Nat) (asg : Nat → List Nat) (hd : Distributes (simCfg lib S D a omp u fuel k) asg) (n : Nat) (s : St α)
      (hr : Reach (simCfg lib S D a omp u fuel k) asg n s) (hf : s.finished (simCfg lib S D a omp u fuel k)) :
      SimOutcome lib a omp e (some (results (simCfg lib S D a omp u fuel k) S.energies s)) e

end Polycap
