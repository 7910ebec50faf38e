import Verif.SourceFile

/-!
# Memory of `polycap_source_new_from_file`, `/repo/src/polycap-source.c:228-445`

The same reader as in `SourceFile`, now with its objects in memory and allocations that may fail.  The `FILE` object is a block
(`fopen` allocates it, `fclose` frees it).  Simplifications: struct members that are read one by one are written in one store (nothing reads
them in between and a struct is released as a whole); a value outside the token model is treated as undefined behaviour; the three file
names are read at once and the profile made from them is a parameter.
-/
namespace Polycap
open CNum CM Mem
variable {α : Type} [CNum α]

/-- the values before the composition as read by `fscanf` -/
structure FileHead (α : Type) where
  sig_rough : α
  src : Src α
  nelem : Nat
  rest : List (Tok α)

/-- polycap-source.c:276-317: the first ten values; `ok none`: a conversion returned 0 -/
def headScan (ts : List (Tok α)) : Out (Option (FileHead α)) :=
  let z : α := lit 0
  let a := scanLf id ts z
  if a.1 = 0 then .ok none else
  let b := scanLf id a.2.2 z
  if b.1 = 0 then .ok none else
  let c := scanLf2 id b.2.2 z z
  if c.1 = 0 then .ok none else
  let d := scanLf2 id c.2.2.2 z z
  if d.1 = 0 then .ok none else
  let f := scanLf2 id d.2.2.2 z z
  if f.1 = 0 then .ok none else
  let g := scanLf id f.2.2.2 z
  if g.1 = 0 then .ok none else do
  let n ← outside (scanInt id g.2.2 0)
  if n.1 = 0 then .ok none else
  .ok (some ⟨a.2.1, ⟨b.2.1, c.2.1, c.2.2.1, d.2.1, d.2.2.1, f.2.1, f.2.2.1, g.2.1, []⟩, (n.2.1 % 4294967296).toNat, n.2.2⟩)

/-- a computation on values only, as a step of a computation on memory -/
def lift {A : Type} (o : Out A) : CM (Block α) A := match o with | .ok a => pure a | _ => ub

/-- What is external to this model: conversion and fit as before; `names`: the input behind the three file names; `pff`: the call of
`polycap_profile_new_from_file` on the three names at the start of the given input. -/
structure FileEnvM (α : Type) where
  trunc : α → Nat
  fit : Fit α
  names : List (Tok α) → List (Tok α)
  pff : List (Tok α) → EArg → CM (Block α) (Ptr × EArg)

/-- the source struct with the members read from the file -/
def srcBlock (d r : Ptr) (S : Src α) (n : Nat) (en : Ptr) : Block α :=
  .source d r S.d_source S.src_x S.src_y S.src_sigx S.src_sigy S.src_shiftx S.src_shifty S.hor_pol n en

/-- `polycap_read_input_line`, polycap-description.c:24-56, seen from outside: the buffer, or NULL and an error.  (What is in the buffer and
how it grows: `ReadLine`.) -/
def lineM (e : EArg) : CM (Block α) (Ptr × EArg) := do
  let l ← malloc (.raw 0)
  pure (l, if l = none then e.set .memory else e)

/-- polycap-source.c:345-367: the profile (NULL if refused) and the rest of the input.  When the profile is refused the three names are not
released. -/
def profileM (env : FileEnvM α) (type : Int) (ts : List (Tok α)) (e : EArg) : CM (Block α) (Ptr × EArg × List (Tok α)) :=
  if type = 0 ∨ type = 1 ∨ type = 2 then do
    let m := scanMany 7 ts
    match ← lift (useAll m.1) with
    | [l, eu, ed, iu, id, fu, fd] => do
      let p ← profileNew env.fit ⟨type, l, eu, ed, iu, id, fu, fd⟩ e
      pure (p.1, p.2, m.2)
    | _ => ub
  else do
    let l1 ← lineM e
    let l2 ← lineM l1.2
    let l3 ← lineM l2.2
    let p ← if l1.1 = none ∨ l2.1 = none ∨ l3.1 = none then pure ((none : Ptr), l3.2.set .invalidArgument) else env.pff ts l3.2
    if p.1 = none then pure (none, p.2, env.names ts) else do
    free l3.1
    free l2.1
    free l1.1
    pure (p.1, p.2, env.names ts)

/-- polycap-source.c:372-445: the weight check (in place), open area, final checks and validation, on what is in memory -/
def finishM (S : Src α) (sig : α) (n_cap : Int) (nelem : Nat) (rho : α) (n : Nat) (d s iz wi en pp : Ptr) (e : EArg) :
    CM (Block α) (Ptr × EArg) := do
  let is ← loadInts iz nelem
  let ws ← loadArr wi nelem
  let es ← loadArr en n
  let (k, pz, pc, px) ← loadProfile pp
  let zs ← loadArr pz (k + 1)
  let cs ← loadArr pc (k + 1)
  let xs ← loadArr px (k + 1)
  let D : Descr α := ⟨sig, n_cap, is, ws, rho, listProfile k zs cs xs⟩
  storeArr wi (checkWeight ws e).1
  store d (.descr sig n_cap (openArea (D.prof.cap 0) (D.prof.ext 0) n_cap) nelem iz wi rho pp)
  let v := fileFinish { S with energies := es } D e
  if v.1.isNone then do
    sourceFree s
    pure (none, v.2)
  else pure (s, v.2)

/-- polycap-source.c:343-445: profile, number of capillaries, end of the file -/
def endM (env : FileEnvM α) (S : Src α) (sig : α) (nelem : Nat) (rho : α) (n : Nat) (d s f iz wi en : Ptr) (ts : List (Tok α)) (e : EArg) :
    CM (Block α) (Ptr × EArg) := do
  let np ← lift (outside (scanInt id ts 0))
  let ty ← lift (outside (scanInt some np.2.2 none))
  let type ← lift (useVar ty.2.1)
  let p ← profileM env type ty.2.2 e
  if p.1 = none then do
    sourceFree s
    pure (none, p.2.1)
  else do
  store d (.descr sig 0 (lit 0) nelem iz wi rho p.1)
  let nc ← lift (outside (scanInt id p.2.2 0))
  free f
  finishM S sig nc.2.1 nelem rho n d s iz wi en p.1 p.2.1

/-- polycap-source.c:318-445, once the first ten values are read -/
def bodyM (env : FileEnvM α) (H : FileHead α) (d s r f : Ptr) (e : EArg) : CM (Block α) (Ptr × EArg) := do
  store d (.descr H.sig_rough 0 (lit 0) H.nelem none none (lit 0) none)
  store s (srcBlock d r H.src 0 none)
  let iz ← malloc (.raw H.nelem)
  if iz = none then (do
    sourceFree s
    pure (none, e.set .memory)) else do
  store d (.descr H.sig_rough 0 (lit 0) H.nelem iz none (lit 0) none)
  let wi ← malloc (.raw H.nelem)
  if wi = none then (do
    sourceFree s
    pure (none, e.set .memory)) else do
  store d (.descr H.sig_rough 0 (lit 0) H.nelem iz wi (lit 0) none)
  let el ← lift (scanElems H.nelem H.rest)
  storeInts iz el.1
  storeArr wi el.2.1
  let rho := scanLf id el.2.2 (lit 0)
  store d (.descr H.sig_rough 0 (lit 0) H.nelem iz wi rho.2.1 none)
  let m := scanMany 3 rho.2.2
  match ← lift (useAll m.1) with
  | [e0, e1, de] => do
    let n := env.trunc ((e1 -. e0) /. de +. lit 1)
    let en ← malloc (.raw n)
    store s (srcBlock d r H.src n en)
    if en = none then (do
      sourceFree s
      pure (none, e.set .memory)) else do
    storeArr en ((List.range n).map fun i => e0 +. ofInt (i : Int) *. de)
    endM env H.src H.sig_rough H.nelem rho.2.1 n d s f iz wi en m.2 e
  | _ => ub

/-- `polycap_source_new_from_file`, polycap-source.c:228-445.  `fs`: the readable files with their content. -/
def sourceFromFileM (env : FileEnvM α) (filename : Option String) (fs : String → Option (List (Tok α))) (e : EArg) :
    CM (Block α) (Ptr × EArg) :=
  match filename with
  | none => pure (none, e.set .invalidArgument)
  | some name => do
    let d ← malloc (.descr (lit 0) 0 (lit 0) 0 none none (lit 0) none)
    if d = none then pure (none, e.set .memory) else do
    let z : Src α := ⟨lit 0, lit 0, lit 0, lit 0, lit 0, lit 0, lit 0, lit 0, []⟩
    let s ← malloc (srcBlock none none z 0 none)
    if s = none then (do
      descriptionFree d
      pure (none, e.set .memory)) else do
    let r ← malloc .rng
    if r = none then ub else do
    store s (srcBlock d r z 0 none)
    match fs name with
    | none => do
      sourceFree s
      pure (none, e.set .io)
    | some ts => do
      let f ← malloc (.raw 0)
      if f = none then (do
        sourceFree s
        pure (none, e.set .io)) else do
      match ← lift (headScan ts) with
      | none => do
        sourceFree s
        pure (none, e.set .io)
      | some H => bodyM env H d s r f e
end Polycap
