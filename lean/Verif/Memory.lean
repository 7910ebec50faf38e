import Verif.Lib

/-!
# Memory of photons, leaks and results

`polycap_leak_new`, `polycap_leak_free`, `polycap_photon_free`, `polycap_photon_get_extleak_data`, `polycap_photon_get_intleak_data`
(`/repo/src/polycap-photon.c:1014-1162`), `polycap_images_free`, `polycap_transmission_efficiencies_free`
(`/repo/src/polycap-transmission-efficiencies.c:1056-1145`) and the allocations of
`polycap_source_get_transmission_efficiencies` (`/repo/src/polycap-source.c:495-682, 986-1001, 1082-1085`).
-/
namespace Polycap.Memo
open CM Mem

section photon
variable {α : Type}

/-- read element `i` of an array of pointers -/
def ptrAt (p : Ptr) (i : Nat) : CM (Block α) Ptr := do
  match ← load p with
  | .ptrs ps => match ps[i]? with
    | some q => pure q
    | none => ub
  | _ => ub

/-- write element `i` of an array of pointers -/
def setPtrAt (p : Ptr) (i : Nat) (q : Ptr) : CM (Block α) Unit := do
  match ← load p with
  | .ptrs ps => if i < ps.length then store p (.ptrs (ps.set i q)) else ub
  | _ => ub

/-- `polycap_leak_new`, polycap-photon.c:1015-1035.  The second allocation is not checked. -/
def leakNew (coords dir elecv : V3 α) (n_refl : Int) (ne : Nat) (weights : Ptr) (e : EArg) : CM (Block α) (Ptr × EArg) := do
  let l ← malloc (.raw 0)
  if l = none then pure (none, e.set .memory) else do
  let w ← malloc (.raw ne)
  store l (.leak coords dir elecv ne w n_refl)
  let xs ← loadArr weights ne
  storeArr w xs
  pure (l, e)

/-- `polycap_leak_free`, polycap-photon.c:1125-1132 -/
def leakFree (p : Ptr) : CM (Block α) Unit :=
  if p = none then pure () else do
  match ← load p with
  | .leak _ _ _ _ w _ => do
    free w
    free p
  | _ => ub

/-- `for(i = ...; ...) polycap_leak_free(arr[i]);`, polycap-photon.c:1150-1152, 1156-1158 -/
def freeLeaks (arr : Ptr) : Nat → Nat → CM (Block α) Unit
  | _, 0 => pure ()
  | i, k + 1 => do
    let q ← ptrAt arr i
    leakFree q
    freeLeaks arr (i + 1) k

/-- polycap-photon.c:1149-1154, 1155-1160 -/
def freeLeakArr (arr : Ptr) (n : Nat) : CM (Block α) Unit :=
  if arr = none then pure () else do
  freeLeaks arr 0 n
  free arr

/-- `polycap_photon_free`, polycap-photon.c:1135-1162 (`if (p) free(p)` is `free(p)`) -/
def photonFree (p : Ptr) : CM (Block α) Unit :=
  if p = none then pure () else do
  match ← load p with
  | .photon ext int nExt nInt en w amu sc => do
    free en
    free w
    free amu
    free sc
    freeLeakArr ext nExt
    freeLeakArr int nInt
    free p
  | _ => ub

/-- the loop of the leak getters, polycap-photon.c:1062-1076, 1105-1119.  `memcpy` of the struct copies the pointer to the weights,
which the next statement replaces. -/
def copyLoop (src dst : Ptr) : Nat → Nat → CM (Block α) Bool
  | _, 0 => pure true
  | i, k + 1 => do
    let q ← malloc (.raw 0)
    setPtrAt dst i q
    if q = none then pure false else do
    let l ← ptrAt src i
    match ← load l with
    | .leak c d el ne w nr => do
      store q (.leak c d el ne w nr)
      let w' ← malloc (.raw ne)
      store q (.leak c d el ne w' nr)
      if w' = none then pure false else do
      let xs ← loadArr w ne
      storeArr w' xs
      copyLoop src dst (i + 1) k
    | _ => ub

/-- what a caller finds after the call: return value, error, `*n_leaks` and `*leaks` (`none`: not assigned) -/
structure LeakRet where
  ret : Bool
  err : EArg
  n : Option Nat
  leaks : Option Ptr

/-- polycap-photon.c:1048-1077 (and 1091-1120): `arr`, `n` are the photon's array and counter.  The elements of the fresh array are shown
as NULL until they are written; none is read before. -/
def getLeaksFrom (arr : Ptr) (n : Nat) (e : EArg) : CM (Block α) LeakRet :=
  if n = 0 then pure ⟨false, e.set .invalidArgument, some n, some none⟩ else do
  let out ← malloc (.ptrs (List.replicate n none))
  if out = none then pure ⟨false, e.set .memory, some n, some none⟩ else do
  let b ← copyLoop arr out 0 n
  if b then pure ⟨true, e, some n, some out⟩ else pure ⟨false, e.set .memory, some n, some out⟩

/-- `polycap_photon_get_extleak_data` (`ext = true`, polycap-photon.c:1038-1078), `polycap_photon_get_intleak_data` (1081-1121) -/
def getLeakData (ext : Bool) (p : Ptr) (e : EArg) : CM (Block α) LeakRet :=
  if p = none then pure ⟨false, e.set .invalidArgument, none, none⟩ else do
  match ← load p with
  | .photon ex int nExt nInt _ _ _ _ => if ext then getLeaksFrom ex nExt e else getLeaksFrom int nInt e
  | _ => ub
end photon

/-! ## Results of a simulation -/

/-- the array members of `struct _polycap_images`, polycap-private.h:156-181 -/
inductive Img where
  | src_start_coords0 | src_start_coords1 | pc_start_coords0 | pc_start_coords1 | pc_start_dir0 | pc_start_dir1
  | pc_start_elecv0 | pc_start_elecv1 | pc_exit_coords0 | pc_exit_coords1 | pc_exit_coords2 | pc_exit_dir0 | pc_exit_dir1
  | pc_exit_elecv0 | pc_exit_elecv1 | pc_exit_nrefl | pc_exit_dtravel | exit_coord_weights
  | extleak_coords0 | extleak_coords1 | extleak_coords2 | extleak_dir0 | extleak_dir1 | extleak_coord_weights | extleak_n_refl
  | intleak_coords0 | intleak_coords1 | intleak_coords2 | intleak_dir0 | intleak_dir1 | intleak_elecv0 | intleak_elecv1
  | intleak_coord_weights | intleak_n_refl
  deriving DecidableEq

/-- Memory blocks: an array, `struct _polycap_images`, `struct _polycap_transmission_efficiencies` (polycap-private.h:146-154). -/
inductive RBlock where
  | arr (n : Nat)
  | images (f : Img → Ptr)
  | teff (energies effs images : Ptr)

/-- the order of polycap-transmission-efficiencies.c:1061-1128 -/
def freeOrder : List Img :=
  [.src_start_coords0, .src_start_coords1, .pc_start_coords0, .pc_start_coords1, .pc_start_dir0, .pc_start_dir1,
   .pc_start_elecv0, .pc_start_elecv1, .pc_exit_coords0, .pc_exit_coords1, .pc_exit_coords2, .pc_exit_dir0, .pc_exit_dir1,
   .pc_exit_elecv0, .pc_exit_elecv1, .pc_exit_nrefl, .pc_exit_dtravel, .exit_coord_weights,
   .extleak_coords0, .extleak_coords1, .extleak_coords2, .extleak_dir0, .extleak_dir1, .extleak_coord_weights, .extleak_n_refl,
   .intleak_coords0, .intleak_coords1, .intleak_coords2, .intleak_dir0, .intleak_dir1, .intleak_elecv0, .intleak_elecv1,
   .intleak_coord_weights, .intleak_n_refl]

def freeAll : List Ptr → CM RBlock Unit
  | [] => pure ()
  | p :: ps => do
    free p
    freeAll ps

/-- `polycap_images_free`, polycap-transmission-efficiencies.c:1056-1131 -/
def imagesFree (p : Ptr) : CM RBlock Unit :=
  if p = none then pure () else do
  match ← load p with
  | .images f => do
    freeAll (freeOrder.map f)
    free p
  | _ => ub

/-- `polycap_transmission_efficiencies_free`, polycap-transmission-efficiencies.c:1133-1145.  The source is not released. -/
def teFree (p : Ptr) : CM RBlock Unit :=
  if p = none then pure () else do
  match ← load p with
  | .teff en ef im => do
    free en
    free ef
    imagesFree im
    free p
  | _ => ub

def setImg (f : Img → Ptr) (i : Img) (q : Ptr) : Img → Ptr := fun j => if j = i then q else f j

/-- the order of the allocations, polycap-source.c:556-681 -/
def allocOrder : List Img :=
  [.pc_start_coords0, .pc_start_coords1, .src_start_coords0, .src_start_coords1, .pc_start_dir0, .pc_start_dir1,
   .pc_start_elecv0, .pc_start_elecv1, .pc_exit_coords0, .pc_exit_coords1, .pc_exit_coords2, .pc_exit_dir0, .pc_exit_dir1,
   .pc_exit_elecv0, .pc_exit_elecv1, .pc_exit_nrefl, .pc_exit_dtravel, .exit_coord_weights]

/-- the order of the reallocations after the loop when leaks were asked for, polycap-source.c:986-1001 (`realloc` of NULL is `malloc`) -/
def leakOrder : List Img :=
  [.extleak_coords0, .extleak_coords1, .extleak_coords2, .extleak_dir0, .extleak_dir1, .extleak_n_refl, .extleak_coord_weights,
   .intleak_coords0, .intleak_coords1, .intleak_coords2, .intleak_dir0, .intleak_dir1, .intleak_elecv0, .intleak_elecv1,
   .intleak_n_refl, .intleak_coord_weights]

/-- `images->f = malloc(...)` for the listed members; `false` at the first failure -/
def allocImgs (im : Ptr) : List Img → CM RBlock Bool
  | [] => pure true
  | i :: is => do
    let q ← malloc (.arr 0)
    match ← load im with
    | .images f => do
      store im (.images (setImg f i q))
      if q = none then pure false else allocImgs im is
    | _ => ub

/-- the temporary arrays of the simulation: `sum_weights`, `iexit_temp`, `not_entered_temp`, `not_transmitted_temp` -/
structure Temps where
  sw : Ptr
  ie : Ptr
  ne : Ptr
  nt : Ptr

/-- polycap-source.c:550-681 after the results struct was allocated; on failure the results and `sum_weights` are released -/
def allocResults (t : Temps) (te : Ptr) (e : EArg) : CM RBlock (Option (Temps × Ptr) × EArg) := do
  let en ← malloc (.arr 0)
  store te (.teff en none none)
  if en = none then (do
    teFree te
    free t.sw
    pure (none, e.set .memory)) else do
  let ef ← malloc (.arr 0)
  store te (.teff en ef none)
  if ef = none then (do
    teFree te
    free t.sw
    pure (none, e.set .memory)) else do
  let im ← malloc (.images (fun _ => none))
  store te (.teff en ef im)
  if im = none then (do
    teFree te
    free t.sw
    pure (none, e.set .memory)) else do
  let b ← allocImgs im allocOrder
  if b then pure (some (t, te), e) else do
  teFree te
  free t.sw
  pure (none, e.set .memory)

/-- the allocations before the parallel region, polycap-source.c:495-682: `none` when the call returns NULL -/
def simAlloc (e : EArg) : CM RBlock (Option (Temps × Ptr) × EArg) := do
  let sw ← malloc (.arr 0)
  if sw = none then pure (none, e.set .memory) else do
  let ie ← malloc (.arr 0)
  if ie = none then pure (none, e.set .memory) else do
  let ne ← malloc (.arr 0)
  if ne = none then pure (none, e.set .memory) else do
  let nt ← malloc (.arr 0)
  if nt = none then pure (none, e.set .memory) else do
  let te ← malloc (.teff none none none)
  if te = none then (do
    free sw
    pure (none, e.set .memory)) else
  allocResults ⟨sw, ie, ne, nt⟩ te e

/-- polycap-source.c:986-1001: the leak arrays, after the loop.  The results are not checked. -/
def reallocImgs (im : Ptr) : List Img → CM RBlock Unit
  | [] => pure ()
  | i :: is => do
    let q ← malloc (.arr 0)
    match ← load im with
    | .images f => do
      store im (.images (setImg f i q))
      reallocImgs im is
    | _ => ub

/-- polycap-source.c:986-1001 (if leaks were asked for) and 1082-1085: what is left to allocate and release after the loop.  What the
loop itself does to memory other than these arrays is not shown. -/
def simEnd (leak : Bool) (t : Temps) (te : Ptr) : CM RBlock Unit := do
  match ← load te with
  | .teff _ _ im => do
    if leak then reallocImgs im leakOrder else pure ()
    free t.sw
    free t.ie
    free t.ne
    free t.nt
  | _ => ub
end Polycap.Memo
