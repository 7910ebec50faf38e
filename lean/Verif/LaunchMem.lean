import Verif.Photon
import Verif.Memory

/-!
# The memory of `polycap_photon_launch` and of everything it calls

`Verif.Capil` and `Verif.Photon` model the values.  Here the same functions run on the heap: every `malloc`, `realloc` and `free` of
`/repo/src/polycap-photon.c:22-94, 390-955` and `/repo/src/polycap-capil.c:565-1361` is shown, and any allocation may fail.  Numbers
that are not in an allocated array (coordinates, directions, counters) stay in the value `Photon`; the photon's block holds its pointers
and leak counters.  The error slot is in `Verif.LaunchErr`.
-/
namespace Polycap

/-- computations on the heap that may also run out of the given number of loop iterations -/
structure HM (B A : Type) where
  run : Heap B → Out (A × Heap B)

namespace HM
variable {A B C : Type}
protected def pure (a : A) : HM B A := ⟨fun h => .ok (a, h)⟩
protected def bind (x : HM B A) (f : A → HM B C) : HM B C := ⟨fun h => x.run h >>= fun y => (f y.1).run y.2⟩
instance : Monad (HM B) where
  pure := HM.pure
  bind := HM.bind
/-- a heap computation without loops -/
def ofCM (x : CM B A) : HM B A := ⟨fun h => match x.run h with
  | none => .ub
  | some y => .ok y⟩
/-- a computation that does not touch the heap -/
def ofOut (x : Out A) : HM B A := ⟨fun h => x >>= fun a => .ok (a, h)⟩
end HM

namespace LMem
open CNum CM Mem Memo

variable {α : Type}

/-- the pointers and counters of a photon (polycap-private.h:112-135) -/
structure Ph where
  ext : Ptr
  int : Ptr
  nE : Nat
  nI : Nat
  en : Ptr
  w : Ptr
  amu : Ptr
  sc : Ptr

/-- the block of a photon with these pointers and counters -/
def Ph.blk (b : Ph) : Block α := .photon b.ext b.int b.nE b.nI b.en b.w b.amu b.sc

/-- read a photon struct -/
def getPh (p : Ptr) : CM (Block α) Ph := do
  match ← load p with
  | .photon ext int nE nI en w amu sc => pure ⟨ext, int, nE, nI, en, w, amu, sc⟩
  | _ => ub

/-- write a photon struct -/
def putPh (p : Ptr) (b : Ph) : CM (Block α) Unit := store p b.blk

/-- `realloc` of an array of pointers to `n` elements (never fewer than before); on failure the old array stays -/
def reallocPtrs (p : Ptr) (n : Nat) : CM (Block α) Ptr :=
  if p = none then malloc (.ptrs (List.replicate n none)) else do
  match ← load p with
  | .ptrs ps => do
    let q ← malloc (.ptrs (ps ++ List.replicate (n - ps.length) none))
    if q = none then pure none else do
    free p
    pure q
  | _ => ub

/-- make room for `k` more leaks: polycap-capil.c:690-691, 702-703, 811-812, 827-828, 856-857, 868-869, polycap-photon.c:706, 733, 802, 828.
Result: the enlarged array (NULL on failure) and the old counter. -/
def growLeaks (isExt : Bool) (p : Ptr) (k : Nat) : CM (Block α) (Ptr × Nat) := do
  let b ← getPh p
  if isExt then do
    let q ← reallocPtrs b.ext (b.nE + k)
    putPh p { b with ext := q, nE := b.nE + k }
    pure (q, b.nE)
  else do
    let q ← reallocPtrs b.int (b.nI + k)
    putPh p { b with int := q, nI := b.nI + k }
    pure (q, b.nI)

variable [CNum α]

/-- one more leak event with the weights of the array `ws`: polycap-capil.c:690-698, 702-710, 856-866, 868-878,
polycap-photon.c:706-731, 733-758, 802-826, 828-852 (without the clean-up after a failure); `false`: the array could not be enlarged.
`polycap_leak_new` may give NULL, which is stored. -/
def addLeak (isExt : Bool) (p : Ptr) (l : Leak α) (ne : Nat) (ws : Ptr) : CM (Block α) Bool := do
  let x ← growLeaks isExt p 1
  if x.1 = none then pure false else do
  let q ← leakNew l.coords l.dir l.elecv l.n_refl ne ws none
  setPtrAt x.1 x.2 q.1
  pure true

/-- polycap-capil.c:821-824, 837-840: copies of the leaks `i, …, i+k-1` of the array `src` go to `dst[o+i]` -/
def copyLeaksM (src dst : Ptr) (o ne : Nat) : Nat → Nat → CM (Block α) Unit
  | _, 0 => pure ()
  | i, k + 1 => do
    let l ← ptrAt src i
    match ← load l with
    | .leak c d el _ w nr => do
      let q ← leakNew c d el nr ne w none
      setPtrAt dst (o + i) q.1
      copyLeaksM src dst o ne (i + 1) k
    | _ => ub

/-- polycap-capil.c:810-825, 826-841: the leaks of the temporary photon `t` are added to those of `p` -/
def appendLeaks (isExt : Bool) (p t : Ptr) (ne : Nat) : CM (Block α) Bool := do
  let b ← getPh t
  let n := if isExt then b.nE else b.nI
  if n = 0 then pure true else do
  let x ← growLeaks isExt p n
  if x.1 = none then pure false else do
  copyLeaksM (if isExt then b.ext else b.int) x.1 x.2 ne 0 n
  pure true

/-- release the working arrays: polycap-photon.c:520-536, 653-668, 930-946 and the same lines elsewhere -/
def freeWork (p : Ptr) : CM (Block α) Unit := do
  let b ← getPh p
  free b.en
  free b.w
  free b.amu
  free b.sc
  putPh p { b with en := none, w := none, amu := none, sc := none }

/-- what the energy loop reads, polycap-capil.c:625-645: nothing for no energies -/
def readWork (b : Ph) (n : Nat) : CM (Block α) Unit :=
  if n = 0 then pure () else do
  let _ ← loadArr b.en n
  let _ ← loadArr b.w n
  let _ ← loadArr b.amu n
  let _ ← loadArr b.sc n
  pure ()

/-- what the attenuation loop reads, polycap-photon.c:697-698 -/
def readAtt (b : Ph) (n : Nat) : CM (Block α) Unit :=
  if n = 0 then pure () else do
  let _ ← loadArr b.w n
  let _ ← loadArr b.amu n
  pure ()

/-- the arrays allocated by `polycap_photon_scatf`, polycap-photon.c:70-81, and filled 83-92; `false`: an allocation failed and the
photon was released -/
def scatfM (p : Ptr) (amu sc : List α) : CM (Block α) Bool := do
  let b ← getPh p
  let a ← malloc (.raw amu.length)
  putPh p { b with amu := a }
  if a = none then (do
    photonFree p
    pure false) else do
  let s ← malloc (.raw sc.length)
  putPh p { b with amu := a, sc := s }
  if s = none then (do
    photonFree p
    pure false) else do
  storeArr a amu
  storeArr s sc
  pure true

/-- the vector `polycap_photon_pc_intersect` allocates (polycap-photon.c:304, 346, 356, unchecked) and `polycap_capil_trace_wall` releases
(polycap-capil.c:1092, 1166).  It is allocated when the wall tracing of the photon at `c` with direction `d` ends at the side of the optic
(code 3) and the search found a point. -/
def wallTemp (D : Descr α) (c d : V3 α) (w : Wall α) : CM (Block α) Unit :=
  if w.code = 3 then
    match pcIntersect D.prof (atGrid D.prof c d D.prof.nmax) d none with
    | .ok (some _, _) => do
      let rv ← malloc (.raw 0)
      if rv = none then ub else free rv
    | _ => pure ()
  else pure ()

/-- polycap-capil.c:785-793, polycap-photon.c:767-774, 912-919 -/
def traceLoopM (trace : Nat → Photon α → HM (Block α) (Int × Nat × Photon α)) : Nat → Int → Nat → Photon α →
    HM (Block α) (Int × Nat × Photon α)
  | 0, iesc, ix, P => pure (iesc, ix, P)
  | k + 1, _, ix, P => do
    let x ← trace ix P
    if x.1 ≠ 1 then pure x else traceLoopM trace k x.1 x.2.1 x.2.2

/-- the temporary photon, polycap-capil.c:716-768: struct, its four arrays and the two axis arrays; `none`: an allocation failed and
everything was released.  A failure of `polycap_photon_new` is not checked (717), one inside `polycap_photon_scatf` releases the photon
before it is looked at (742). -/
def tempNew (en w amu sc : List α) (nax : Nat) : CM (Block α) (Option (Ptr × Ptr × Ptr)) := do
  let t ← malloc (Ph.blk ⟨none, none, 0, 0, none, none, none, none⟩)
  if t = none then ub else do
  let e ← malloc (.raw en.length)
  putPh t ⟨none, none, 0, 0, e, none, none, none⟩
  if e = none then (do
    photonFree t
    pure none) else do
  let q ← malloc (.raw w.length)
  putPh t ⟨none, none, 0, 0, e, q, none, none⟩
  if q = none then (do
    photonFree t
    pure none) else do
  storeArr q w
  storeArr e en
  let ok ← scatfM t amu sc
  if !ok then ub else do
  let cx ← malloc (.raw nax)
  if cx = none then (do
    photonFree t
    pure none) else do
  let cy ← malloc (.raw nax)
  if cy = none then (do
    free cx
    photonFree t
    pure none) else
  pure (some (t, cx, cy))

/-- polycap-capil.c:799-804, 815-819, 831-835, 859-863, 871-875, 883-885 -/
def tempFree (t cx cy : Ptr) : CM (Block α) Unit := do
  photonFree t
  free cx
  free cy

/-- polycap-capil.c:845-880 -/
def recordTempM (D : Descr α) (p t : Ptr) (P T : Photon α) (iesc : Int) : CM (Block α) Bool :=
  if iesc = 1 ∨ iesc = -2 then do
    let lc := toExit D.prof T.exitC T.exitD
    let lk : Leak α := ⟨lc, P.exitD, P.exitE, P.i_refl, T.chans.map (·.w)⟩
    let b := withinPcBoundary (D.prof.ext D.prof.nmax) lc.x lc.y
    let ph ← getPh t
    if b = 0 then addLeak true p lk P.chans.length ph.w
    else if b = 1 then addLeak false p lk P.chans.length ph.w
    else pure true
  else pure true

/-- polycap-capil.c:657-889 under `if(leak_flag == 1)`; `wl`: the array `w_leak` with contents `ws`.  After a failed allocation the value
of the photon is left as it was. -/
def reflectLeakM (D : Descr α) (trace : Int → Int → Ptr → Nat → Photon α → HM (Block α) (Int × Nat × Photon α)) (p wl : Ptr)
    (P : Photon α) (w : Wall α) (ws : List α) (iesc : Int) : HM (Block α) (Int × Photon α) :=
  let pr := D.prof
  let ne := P.chans.length
  let lc := along P.exitC P.exitD w.d
  let lk : Leak α := ⟨lc, P.exitD, P.exitE, P.i_refl, ws⟩
  let code := wallCode D w.code lc
  if code = 3 then do
    let ok ← HM.ofCM (addLeak true p lk ne wl)
    HM.ofCM (free wl)
    pure (if ok then (iesc, { P with ext := P.ext ++ [lk] }) else (-1, P))
  else if code = 2 then do
    let ok ← HM.ofCM (addLeak false p lk ne wl)
    HM.ofCM (free wl)
    pure (if ok then (iesc, { P with int := P.int ++ [lk] }) else (-1, P))
  else if code = 1 ∧ (lc.z <. pr.z pr.nmax) = true then
    match photonNew lc P.exitD P.exitE with
    | none => HM.ofCM ub
    | some T => do
      let tmp ← HM.ofCM (tempNew (P.chans.map (·.e)) ws (P.chans.map (·.amu)) (P.chans.map (·.scatf)) (pr.nmax + 1))
      match tmp with
      | none => do
        HM.ofCM (free wl)
        pure (-1, P)
      | some (t, cx, cy) => do
        let T := tempPhoton P T w.d ws
        let ix := segIdFrom pr.z 0 T.exitC.z (pr.nmax + 1)
        let x ← traceLoopM (trace w.q w.r t) (pr.nmax - ix + 1) 0 ix T
        if x.1 = -1 ∨ x.1 = -3 then do
          HM.ofCM (tempFree t cx cy)
          HM.ofCM (free wl)
          pure (-2, P)
        else do
          let T := x.2.2
          let a ← HM.ofCM (appendLeaks true p t ne)
          let b ← HM.ofCM (if a then appendLeaks false p t ne else pure false)
          let P' := { P with ext := P.ext ++ T.ext, int := P.int ++ T.int }
          let c ← HM.ofCM (if b then recordTempM D p t P' T x.1 else pure false)
          HM.ofCM (tempFree t cx cy)
          HM.ofCM (free wl)
          pure (if c then (iesc, recordTemp D P' T x.1) else (-1, P))
  else do
    HM.ofCM (free wl)
    pure (iesc, P)

/-- polycap-capil.c:612-890, after wall tracing -/
def reflectRestM (D : Descr α) (leak : Bool) (trace : Int → Int → Ptr → Nat → Photon α → HM (Block α) (Int × Nat × Photon α))
    (norm : V3 α) (alfa : α) (p wl : Ptr) (P : Photon α) (w : Wall α) : HM (Block α) (Int × Photon α) :=
  if leak ∧ w.code ≤ 0 then do
    HM.ofCM (free wl)
    pure (-1, P)
  else do
    let b ← HM.ofCM (getPh p)
    HM.ofCM (readWork b P.chans.length)
    let r := reflEnergies D norm P.exitD alfa leak w.d P.chans P.exitE P.exitE
    HM.ofCM (storeArr b.w (r.chans.map (·.w)))
    if !r.ok then do
      HM.ofCM (free wl)
      pure (-1, { P with chans := r.chans, exitE := r.E })
    else do
      HM.ofCM (if leak then storeArr wl r.wl else pure ())
      let P := { P with chans := r.chans, exitE := r.ev }
      let iesc : Int := if r.weightFlag then 1 else 0
      if r.leakFlag then reflectLeakM D trace p wl P w r.wl iesc else do
        HM.ofCM (free wl)
        pure (iesc, P)

/-- `polycap_capil_reflect`, polycap-capil.c:565-891 -/
def reflectBodyM (D : Descr α) (leak : Bool) (fuel : Nat)
    (trace : Int → Int → Ptr → Nat → Photon α → HM (Block α) (Int × Nat × Photon α)) (norm : V3 α) (p : Ptr) (P : Photon α) :
    HM (Block α) (Int × Photon α) :=
  let norm := vnorm norm
  let P := { P with exitD := vnorm P.exitD }
  let alfa := scalar P.exitD norm
  if alfa <. lit 0 then pure (-1, P)
  else do
    let wl ← HM.ofCM (malloc (.raw P.chans.length))
    if wl = none then pure (-1, P) else do
    let w ← HM.ofOut (wallOf D leak fuel P)
    HM.ofCM (wallTemp D P.exitC (vnorm P.exitD) w)
    reflectRestM D leak trace norm alfa p wl (renorm leak P) w

/-- polycap-capil.c:1312-1360 -/
def traceHitM (D : Descr α) (refl : V3 α → Ptr → Photon α → HM (Block α) (Int × Photon α)) (p : Ptr) (P : Photon α) (i : Nat) (v n : V3 α)
    (cosalfa : α) : HM (Block α) (Int × Nat × Photon α) :=
  let pr := D.prof
  let P := { P with d_travel := P.d_travel +. dist3 v P.exitC, exitC := v }
  if fabs cosalfa >. lit 1 then pure (-1, i + 1, P)
  else
    let ix := segIdFrom pr.z (i + 1) v.z pr.nmax
    if pr.nmax < ix + 1 then HM.ofCM ub
    else
      let cur := interpAt pr pr.ext ix v.z
      if nShells (α := α) D.n_cap = 0 ∧ (v.x *. v.x +. v.y *. v.y >=. cur) = true then pure (-3, ix, P)
      else if nShells (α := α) D.n_cap > 0 ∧ withinPcBoundary cur v.x v.y = 0 then pure (-3, ix, P)
      else do
        let x ← refl n p P
        pure (afterReflect n cosalfa ix x)

/-- `polycap_capil_trace`, polycap-capil.c:1197-1361: allocates nothing itself -/
def capilTraceM (D : Descr α) (refl : V3 α → Ptr → Photon α → HM (Block α) (Int × Photon α)) (capx capy : Nat → α) (p : Ptr) (ix : Nat)
    (P : Photon α) : HM (Block α) (Int × Nat × Photon α) :=
  let P := { P with exitD := vnorm P.exitD, startD := vnorm P.startD }
  match traceSearch D capx capy P (D.prof.nmax - ix) ix P.exitC ⟨lit 0, lit 0, lit 0⟩ with
  | .ret code => pure (code, ix, P)
  | .miss => pure (-2, ix, P)
  | .hit i v n cosalfa => traceHitM D refl p P i v n cosalfa

/-- `polycap_capil_reflect`, polycap-capil.c:565-891, recursion unrolled as in `reflect` -/
def reflectM (D : Descr α) (leak : Bool) (fuel : Nat) : Nat → V3 α → Ptr → Photon α → HM (Block α) (Int × Photon α)
  | 0, _, _, _ => HM.ofOut .fuel
  | k + 1, norm, p, P =>
    reflectBodyM D leak fuel
      (fun q r t ix T => capilTraceM D (reflectM D leak fuel k) (capxOf D q r) (capyOf D q r) t ix T) norm p P

/-- `polycap_capil_trace` proper, polycap-capil.c:1197-1361 -/
def traceM (D : Descr α) (leak : Bool) (fuel k : Nat) (capx capy : Nat → α) (p : Ptr) (ix : Nat) (P : Photon α) :
    HM (Block α) (Int × Nat × Photon α) :=
  capilTraceM D (reflectM D leak fuel k) capx capy p ix P

/-- `for(i=..) if(arr[i]->weight) free(arr[i]->weight);`, polycap-photon.c:435-438, 443-446: the structs are not released -/
def dropWeights (arr : Ptr) : Nat → Nat → CM (Block α) Unit
  | _, 0 => pure ()
  | i, k + 1 => do
    let q ← ptrAt arr i
    match ← load q with
    | .leak _ _ _ _ w _ => do
      free w
      dropWeights arr (i + 1) k
    | _ => ub

/-- polycap-photon.c:434-441, 442-449 -/
def dropLeaks (arr : Ptr) (n : Nat) : CM (Block α) Unit :=
  if arr = none then pure () else do
  dropWeights arr 0 n
  free arr

/-- the leaks of an earlier launch, polycap-photon.c:433-449: the pointers become NULL, the counters stay -/
def clearOld (p : Ptr) : CM (Block α) Unit := do
  let b ← getPh p
  dropLeaks b.ext b.nE
  putPh p { b with ext := none }
  dropLeaks b.int b.nI
  putPh p { b with ext := none, int := none }

/-- the arrays of a launch, polycap-photon.c:458-478: `*weights` (unchecked), `energies`, `weight`, and the counters.  `false`: an
allocation failed and the photon was released. -/
def launchArrays (p : Ptr) (es : List α) : CM (Block α) (Ptr × Bool) := do
  let wts ← malloc (.raw es.length)
  let b ← getPh p
  let en ← malloc (.raw es.length)
  putPh p { b with en := en }
  if en = none then (do
    photonFree p
    pure (wts, false)) else do
  let w ← malloc (.raw es.length)
  putPh p { b with en := en, w := w }
  if w = none then (do
    photonFree p
    pure (wts, false)) else do
  storeArr en es
  storeArr w (es.map fun _ => lit 1)
  putPh p { b with en := en, w := w, nE := 0, nI := 0 }
  pure (wts, true)

/-- polycap-photon.c:796-853 -/
def recordLaunchM (D : Descr α) (p : Ptr) (P : Photon α) (iesc : Int) : CM (Block α) Bool :=
  if iesc = 1 ∨ iesc = -2 then do
    let P := { P with exitC := toExit D.prof P.exitC P.exitD }
    let lk : Leak α := ⟨P.exitC, P.exitD, P.exitE, P.i_refl, P.chans.map (·.w)⟩
    let b := withinPcBoundary (D.prof.ext D.prof.nmax) P.exitC.x P.exitC.y
    let ph ← getPh p
    if b = 0 then addLeak true p lk P.chans.length ph.w
    else if b = 1 then addLeak false p lk P.chans.length ph.w
    else pure true
  else pure true

/-- every way out of the launch past the axis arrays: polycap-photon.c:653-671, 676-694, 867-886, 888-906, 926-946 -/
def leave (p cx cy : Ptr) : CM (Block α) Unit := do
  free cx
  free cy
  freeWork p

/-- polycap-photon.c:673-886 -/
def launchWallM (D : Descr α) (leak : Bool) (fuel k : Nat) (p cx cy : Ptr) (P : Photon α) (w : Wall α) : HM (Block α) (Int × Photon α) :=
  if w.code ≤ 0 then do
    HM.ofCM (leave p cx cy)
    pure (-1, finish P)
  else do
    let b ← HM.ofCM (getPh p)
    let n := P.chans.length
    HM.ofCM (readAtt b n)
    let P := { P with chans := P.chans.map (attenuate w.d), exitC := along P.exitC P.exitD w.d }
    HM.ofCM (storeArr b.w (P.chans.map (·.w)))
    let lk : Leak α := ⟨P.exitC, P.exitD, P.exitE, P.i_refl, P.chans.map (·.w)⟩
    if w.code = 3 then do
      let ok ← HM.ofCM (addLeak true p lk n b.w)
      HM.ofCM (leave p cx cy)
      pure (if ok then (1, finish (clearWall D { P with ext := P.ext ++ [lk] })) else (-1, finish P))
    else if w.code = 2 then do
      let ok ← HM.ofCM (addLeak false p lk n b.w)
      HM.ofCM (leave p cx cy)
      pure (if ok then (1, finish (clearWall D { P with int := P.int ++ [lk] })) else (-1, finish P))
    else do
      let P := { P with d_travel := P.d_travel +. w.d }
      let ix := segIdFrom D.prof.z (segIdFrom D.prof.z 0 P.startC.z (D.prof.nmax + 1)) P.exitC.z (D.prof.nmax + 1)
      let x ← traceLoopM (traceM D leak fuel k (axX D (w.q, w.r)) (axY D (w.q, w.r)) p) (D.prof.nmax + 1) 0 ix P
      if x.1 = -1 ∨ x.1 = -3 then do
        HM.ofCM (leave p cx cy)
        pure (-1, finish x.2.2)
      else do
        let ok ← HM.ofCM (recordLaunchM D p x.2.2 x.1)
        HM.ofCM (leave p cx cy)
        pure (if ok then (1, finish (clearWall D (recordLaunch D x.2.2 x.1))) else (-1, finish x.2.2))

/-- polycap-photon.c:909-954 -/
def launchInsideM (D : Descr α) (leak : Bool) (fuel k : Nat) (qr : Int × Int) (wts p cx cy : Ptr) (P : Photon α) :
    HM (Block α) (Int × Photon α) := do
  let ix := segIdFrom D.prof.z 0 P.startC.z (D.prof.nmax + 1)
  let x ← traceLoopM (traceM D leak fuel k (axX D qr) (axY D qr) p) (D.prof.nmax + 1) 0 ix P
  let b ← HM.ofCM (getPh p)
  let ws ← HM.ofCM (loadArr b.w P.chans.length)
  HM.ofCM (storeArr wts ws)
  HM.ofCM (leave p cx cy)
  let code : Int := if x.1 = -1 ∨ x.1 = -3 then -1 else if x.1 = 0 then 0 else 1
  pure (code, finish x.2.2)

/-- polycap-photon.c:576-954: the axis arrays and what follows -/
def launchAxesM (D : Descr α) (leak : Bool) (fuel k : Nat) (qr : Int × Int) (wts p : Ptr) (P : Photon α) : HM (Block α) (Int × Photon α) := do
  let cx ← HM.ofCM (malloc (.raw (D.prof.nmax + 1)))
  if cx = none then (do
    HM.ofCM (freeWork p)
    pure (-1, finish P)) else do
  let cy ← HM.ofCM (malloc (.raw (D.prof.nmax + 1)))
  if cy = none then (do
    HM.ofCM (freeWork p)
    HM.ofCM (free cx)
    pure (-1, finish P)) else do
  if startsInWall D qr P.startC then
    if leak && P.startC.z ==. lit 0 then do
      let x ← reflectM D leak fuel k ⟨lit 0, lit 0, lit 1⟩ p P
      HM.ofCM (leave p cx cy)
      pure (2, finish x.2)
    else if leak && P.startC.z >. lit 0 then do
      let w ← HM.ofOut (traceWall D fuel P.exitC (vnorm P.exitD))
      HM.ofCM (wallTemp D P.exitC (vnorm P.exitD) w)
      launchWallM D leak fuel k p cx cy { P with exitD := vnorm P.exitD } w
    else do
      HM.ofCM (leave p cx cy)
      pure (2, finish P)
  else launchInsideM D leak fuel k qr wts p cx cy P

/-- polycap-photon.c:457-954, after the guards: return value, `*weights`, photon -/
def launchBodyM (lib : Xray α) (D : Descr α) (leak : Bool) (fuel k : Nat) (p : Ptr) (P : Photon α) (es : List α) :
    HM (Block α) (Int × Ptr × Photon α) := do
  let x ← HM.ofCM (launchArrays p es)
  let P := launchInit lib D es P
  if !x.2 then pure (-1, x.1, finish P) else do
  let ok ← HM.ofCM (if scatfRejects D es then pure true else scatfM p (P.chans.map (·.amu)) (P.chans.map (·.scatf)))
  if !ok then HM.ofCM ub else do -- the photon was released and is used
  match launchCap D P.startC with
  | none => do
    HM.ofCM (freeWork p)
    pure (-2, x.1, finish P)
  | some qr => do
    let y ← launchAxesM D leak fuel k qr x.1 p P
    pure (y.1, x.1, y.2)

/-- `polycap_photon_launch`, polycap-photon.c:390-955, on the photon struct at `p` whose other members are `P`: return value, `*weights`
(`none`: not assigned), photon afterwards -/
def launchM (lib : Xray α) (D : Option (Descr α)) (leak : Bool) (fuel k : Nat) (p : Ptr) (P : Photon α) (energies : Option (List α))
    (wptr : Bool) : HM (Block α) (Int × Option Ptr × Photon α) :=
  if p = none then pure (-1, none, P) else
  match energies with
  | none => pure (-1, none, P)
  | some es =>
    if es.isEmpty || es.any energyBad || !wptr then pure (-1, none, P)
    else do
      HM.ofCM (clearOld p)
      match D with
      | none => pure (-1, none, { P with ext := [], int := [] })
      | some D => do
        let x ← launchBodyM lib D leak fuel k p P es
        pure (x.1, some x.2.1, x.2.2)

end LMem
end Polycap
