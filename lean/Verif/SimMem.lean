import Verif.LaunchMem
import Verif.Sim

/-!
# The memory of the threads of a simulation

`Verif.Sim` models the values of `polycap_source_get_transmission_efficiencies`.  Here the parallel region (`/repo/src/polycap-source.c:687-1052`)
runs on a heap that all threads share: every `malloc`, `realloc` and `free` of a thread, of `polycap_source_get_photon`,
`polycap_photon_launch`, `polycap_leak_new`, `polycap_leak_free` and `polycap_photon_free` is shown, and any allocation may fail.  The steps
that are interleaved are those of `Verif.Sim`; between two of them a thread touches only blocks of its own, so a finer interleaving gives
other addresses but nothing else.

The result arrays (`efficiencies`, shared by the threads) are values; their memory is in `Verif.Memory`.  A `polycap_rng` is one opaque block.
The numbers in a photon struct (coordinates, directions, counters) stay in the value `Photon`, as in `Verif.LaunchMem`.
-/
namespace Polycap.SMem
open CNum CM Mem Memo LMem

variable {α : Type}

/-- a growing array of pointers to leaks: pointer, counter, allocated size (polycap-source.c:709-724) -/
structure MBuf where
  q : Ptr
  n : Nat
  cap : Nat

def MBuf.empty : MBuf := ⟨none, 0, 0⟩

/-- polycap-source.c:804-813, 820-829, 927-936, 937-946: count `k` more leaks and enlarge the array if needed (`realloc` unchecked) -/
def MBuf.grow (b : MBuf) (k : Nat) : CM (Block α) MBuf := do
  let q ← (if b.n + k > b.cap then reallocPtrs b.q (growCap b.cap (b.n + k)) else pure b.q)
  pure ⟨q, b.n + k, growCap b.cap (b.n + k)⟩

variable [CNum α]

/-- polycap-source.c:814-817, 830-833, 949-954, 955-960: copies of the `k` leaks of `src` become the last `k` entries -/
def MBuf.fill (ne : Nat) (b : MBuf) (src : Ptr) (k : Nat) : CM (Block α) Unit := copyLeaksM src b.q (b.n - k) ne 0 k

/-- polycap-source.c:803-818, 819-834: leaks of a photon that will be replaced -/
def keepLeaksM (ne : Nat) (b : MBuf) (src : Ptr) (k : Nat) : CM (Block α) MBuf :=
  if k > 0 then do
    let b ← b.grow k
    b.fill ne src k
    pure b
  else pure b

/-- polycap-source.c:838-857, 858-877: the kept leaks are copied to the photon that came out, and released -/
def passLeaksM (s : Bool) (ne : Nat) (p : Ptr) (b : MBuf) : CM (Block α) MBuf :=
  if b.n > 0 then do
    let x ← growLeaks s p b.n
    copyLeaksM b.q x.1 x.2 ne 0 b.n
    freeLeakArr b.q b.n
    pure MBuf.empty
  else pure b

/-- where a thread is: as `Pc`, with the numbers of the photon it holds -/
inductive MPc (α : Type) where
  | work (j : Nat) (rest : List Nat)
  | save (j : Nat) (P : Photon α) (rest : List Nat)
  | refl (n : Int) (rest : List Nat)
  | forEnd
  | sum
  | barrier
  | single
  | singleEnd
  | copy
  | done

/-- order of the synchronisation points -/
def MPc.rank : MPc α → Nat
  | .work _ _ => 0
  | .save _ _ _ => 0
  | .refl _ _ => 0
  | .forEnd => 1
  | .sum => 2
  | .barrier => 3
  | .single => 4
  | .singleEnd => 5
  | .copy => 6
  | .done => 7

/-- private variables of a thread, polycap-source.c:699-741; `wtsT`: `weights_temp`, not assigned at first -/
structure MThr (α : Type) where
  pc : MPc α
  pos : Nat
  prog : Nat
  weights : Ptr
  rng : Ptr
  photon : Ptr
  wtsT : Option Ptr
  ext : MBuf
  int : MBuf
  extT : MBuf
  intT : MBuf

structure MSt (α : Type) where
  sh : Shared α
  thr : Nat → MThr α

/-- what a simulation is run with -/
structure Prm (α : Type) where
  lib : Xray α
  S : Src α
  D : Descr α
  a : SimArgs α
  omp : Int
  u : Nat → Nat → α
  fuel : Nat
  k : Nat

/-- the simulation on values -/
def Prm.cfg (A : Prm α) : Cfg α := simCfg A.lib A.S A.D A.a A.omp A.u A.fuel A.k

/-- `free(weights_temp)`: undefined if it was never assigned -/
def freeW : Option Ptr → CM (Block α) Unit
  | none => ub
  | some q => free q

/-- one pass of the do-while body, polycap-source.c:746-884 -/
def workM (A : Prm α) (t j : Nat) (rest : List Nat) (th : MThr α) (sh : Shared α) : HM (Block α) (MThr α × Shared α) := do
  let x ← HM.ofOut (getPhoton A.S A.D (A.u t) A.fuel th.pos)
  let p ← HM.ofCM (malloc (Ph.blk ⟨none, none, 0, 0, none, none, none, none⟩))
  if p = none then HM.ofCM ub else do -- `photon->src_start_coords = ...` without a check, polycap-source.c:141
  let y ← launchM A.lib (some A.D) A.a.leak A.fuel A.k p x.1.photon (some A.S.energies) true
  let a : Attempt α := ⟨y.1, x.1.src, y.2.2, .untouched⟩
  let iesc := simCode A.D a
  let sh := countCode t a sh
  let th := { th with pos := x.2, photon := p, wtsT := y.2.1.or th.wtsT }
  if iesc = 1 then
    if A.cfg.n ≤ j then HM.ofCM ub else do
    let sh := { sh with iexit := upd1 sh.iexit t (sh.iexit t + 1), start := upd1 sh.start j (some (startRec a)) }
    let e ← HM.ofCM (if A.a.leak then passLeaksM true A.S.energies.length p th.extT else pure th.extT)
    let i ← HM.ofCM (if A.a.leak then passLeaksM false A.S.energies.length p th.intT else pure th.intT)
    pure ({ th with extT := e, intT := i, pc := .save j y.2.2 rest }, sh)
  else do
    let b ← HM.ofCM (getPh p)
    let e ← HM.ofCM (if A.a.leak ∧ (iesc = 0 ∨ iesc = 2) then keepLeaksM A.S.energies.length th.extT b.ext b.nE else pure th.extT)
    let i ← HM.ofCM (if A.a.leak ∧ (iesc = 0 ∨ iesc = 2) then keepLeaksM A.S.energies.length th.intT b.int b.nI else pure th.intT)
    HM.ofCM (photonFree p)
    HM.ofCM (freeW th.wtsT)
    if simRetry iesc then pure ({ th with extT := e, intT := i, pc := .work j rest }, sh)
    else do -- the loop is left and the photon is used
      let _ ← HM.ofCM (getPh (α := α) p)
      pure ({ th with extT := e, intT := i, pc := .save j y.2.2 rest }, sh)

/-- polycap-source.c:886-961 -/
def saveM (A : Prm α) (t j : Nat) (P : Photon α) (rest : List Nat) (th : MThr α) (sh : Shared α) : HM (Block α) (MThr α × Shared α) :=
  if reports A.cfg t th.prog && decide (A.cfg.n / A.cfg.T = 0 ∨ j * 100 ≥ 2147483648) then HM.ofCM ub else do
  let ne := A.S.energies.length
  let ws ← HM.ofCM (loadArr (th.wtsT.getD none) ne)
  if A.cfg.n ≤ j then HM.ofCM ub else do
  let w ← HM.ofCM (loadArr th.weights ne)
  HM.ofCM (storeArr th.weights (List.zipWith (· +. ·) w ws))
  let sh := { sh with exitW := putRow sh.exitW ne j ws, exit := upd1 sh.exit j (some (exitRec A.D.prof P)),
                      writes := upd1 sh.writes j (sh.writes j + 1) }
  let th := { th with prog := nextProg A.cfg t th.prog, pc := .refl P.i_refl rest }
  if A.a.leak then do
    let b ← HM.ofCM (getPh th.photon)
    let e ← HM.ofCM (th.ext.grow b.nE)
    let i ← HM.ofCM (th.int.grow b.nI)
    HM.ofCM (e.fill ne b.ext b.nE)
    HM.ofCM (i.fill ne b.int b.nI)
    pure ({ th with ext := e, int := i }, sh)
  else pure (th, sh)

/-- read leak `i` of an array, polycap-source.c:1007-1015 -/
def readLeak (ne : Nat) (arr : Ptr) (i : Nat) : CM (Block α) (Leak α) := do
  let l ← ptrAt arr i
  match ← load l with
  | .leak c d el _ w nr => do
    let ws ← loadArr w ne
    pure ⟨c, d, el, nr, ws⟩
  | _ => ub

/-- polycap-source.c:1006-1017, 1018-1030: the leaks `i, …, i+k-1` of the array go to the result arrays -/
def putAllM (ne : Nat) (put : Shared α → Leak α → Out (Shared α)) (arr : Ptr) : Nat → Nat → Shared α → HM (Block α) (Shared α)
  | _, 0, sh => pure sh
  | i, k + 1, sh => do
    let l ← HM.ofCM (readLeak ne arr i)
    let sh ← HM.ofOut (put sh l)
    putAllM ne put arr (i + 1) k sh

/-- the end of a thread, polycap-source.c:1033-1051 -/
def endM (th : MThr α) : CM (Block α) Unit := do
  freeLeakArr th.ext.q th.ext.n
  freeLeakArr th.int.q th.int.n
  free th.rng
  free th.weights

def MSt.set (s : MSt α) (t : Nat) (x : MThr α × Shared α) : MSt α := ⟨x.2, upd1 s.thr t x.1⟩

/-- all threads have reached the synchronisation point of rank `r` -/
def allAtM (A : Prm α) (s : MSt α) (r : Nat) : Bool := decide (∀ i < A.cfg.T, r ≤ (s.thr i).pc.rank)

/-- the next slot, or the end of the `omp for` -/
def nextPcM : List Nat → MPc α
  | [] => .forEnd
  | j :: rest => .work j rest

/-- one step of thread `t` (see `tstep`); `none`: it waits -/
def tstepM (A : Prm α) (t : Nat) (s : MSt α) : HM (Block α) (Option (MSt α)) :=
  let th := s.thr t
  let sh := s.sh
  let ne := A.S.energies.length
  match th.pc with
  | .work j rest => do
    let x ← workM A t j rest th sh
    pure (some (s.set t x))
  | .save j P rest => do
    let x ← saveM A t j P rest th sh
    pure (some (s.set t x))
  | .refl n rest => do -- polycap-source.c:963-970
    HM.ofCM (photonFree th.photon)
    HM.ofCM (freeW th.wtsT)
    pure (some (s.set t ({ th with pc := nextPcM rest }, { sh with irefl := sh.irefl + n })))
  | .forEnd => pure (if allAtM A s 1 then some (s.set t ({ th with pc := .sum }, sh)) else none)
  | .sum => do -- polycap-source.c:973-980
    let w ← HM.ofCM (loadArr th.weights ne)
    let sh := { sh with sumW := List.zipWith (· +. ·) sh.sumW w }
    if A.a.leak then
      pure (some (s.set t ({ th with pc := .barrier }, { sh with iExt := sh.iExt + th.ext.n, iInt := sh.iInt + th.int.n })))
    else do
      HM.ofCM (endM th)
      pure (some (s.set t ({ th with pc := .done }, sh)))
  | .barrier => pure (if allAtM A s 3 then some (s.set t ({ th with pc := .single }, sh)) else none)
  | .single =>
    match sh.alloc with
    | none => pure (some (s.set t ({ th with pc := .singleEnd }, { sh with alloc := some (sh.iExt, sh.iInt), extN := 0, intN := 0 })))
    | some _ => pure (some (s.set t ({ th with pc := .singleEnd }, sh)))
  | .singleEnd => pure (if allAtM A s 5 then some (s.set t ({ th with pc := .copy }, sh)) else none)
  | .copy => do
    let sh ← putAllM ne (putExt ne) th.ext.q 0 th.ext.n sh
    let sh ← putAllM ne (putInt ne) th.int.q 0 th.int.n sh
    HM.ofCM (endM th)
    pure (some (s.set t ({ th with pc := .done }, sh)))
  | .done => pure none

/-- a thread before its loop, polycap-source.c:726-743: `weights` (unchecked) and the generator (`calloc` unchecked, polycap-rng.c:84-85) -/
def threadStart (ne : Nat) (slots : List Nat) : CM (Block α) (MThr α) := do
  let w ← malloc (.raw ne)
  storeArr w (List.replicate ne (lit 0))
  let g ← malloc .rng
  if g = none then ub else
  pure ⟨nextPcM slots, 0, 0, w, g, none, none, MBuf.empty, MBuf.empty, MBuf.empty, MBuf.empty⟩

/-- the threads `0, …, n-1` start -/
def startAll (ne : Nat) (asg : Nat → List Nat) : Nat → CM (Block α) (Nat → MThr α)
  | 0 => pure (fun _ => ⟨.done, 0, 0, none, none, none, none, MBuf.empty, MBuf.empty, MBuf.empty, MBuf.empty⟩)
  | n + 1 => do
    let f ← startAll ne asg n
    let th ← threadStart ne (asg n)
    pure (upd1 f n th)

/-- Any interleaving of the threads, from the heap `h0` on: states reachable in `k` steps, with the heap. -/
inductive MReach (A : Prm α) (asg : Nat → List Nat) (h0 : Heap (Block α)) : Nat → MSt α → Heap (Block α) → Prop
  | start {f h} (hs : (startAll A.S.energies.length asg A.cfg.T).run h0 = some (f, h)) : MReach A asg h0 0 ⟨(initSt A.cfg asg).sh, f⟩ h
  | step {k s h t s' h'} (r : MReach A asg h0 k s h) (ht : t < A.cfg.T) (hs : (tstepM A t s).run h = .ok (some s', h')) :
      MReach A asg h0 (k + 1) s' h'

def MSt.finished (A : Prm α) (s : MSt α) : Prop := ∀ t < A.cfg.T, (s.thr t).pc.rank = 7

end Polycap.SMem
