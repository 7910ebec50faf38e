import Verif.Source

/-!
# `polycap_source_new_from_file`, `/repo/src/polycap-source.c:228-445`

Value-level model: the input file is a list of white-space separated tokens.  Simplifications: allocation and file-open failures,
the leaked `FILE` handles and the heap blocks are not modelled; a token with a decimal point in an integer field is outside the
model (outcome `fuel`); the profile-from-files branch (three file names) is a parameter.
-/
namespace Polycap
open CNum

variable {α : Type} [CNum α]

/-- One token of the input file: an integer, another number, or something that is no number. -/
inductive Tok (α : Type) where
  | int (n : Int)
  | real (x : α)
  | junk

/-- `fscanf(fptr, "%lf", &v)`: return value (1 converted, 0 no conversion, -1 EOF), the value of `v` afterwards (unchanged unless
converted) and the rest of the input. -/
def scanLf {A : Type} (inj : α → A) (ts : List (Tok α)) (v : A) : Int × A × List (Tok α) :=
  match ts with
  | [] => (-1, v, [])
  | .int n :: r => (1, inj (ofInt n), r)
  | .real x :: r => (1, inj x, r)
  | .junk :: r => (0, v, .junk :: r)

/-- `fscanf(fptr, "%lf %lf", &v, &w)`: the second conversion only happens after the first; the return value is the number of
conversions, or EOF before the first one. -/
def scanLf2 {A : Type} (inj : α → A) (ts : List (Tok α)) (v w : A) : Int × A × A × List (Tok α) :=
  let a := scanLf inj ts v
  if a.1 = 1 then
    let b := scanLf inj a.2.2 w
    (if b.1 = 1 then 2 else 1, a.2.1, b.2.1, b.2.2)
  else (a.1, a.2.1, w, a.2.2)

/-- `fscanf` of an integer (`%d`, `%u`, PRId64), `none`: outside the model -/
def scanInt {A : Type} (inj : Int → A) (ts : List (Tok α)) (v : A) : Option (Int × A × List (Tok α)) :=
  match ts with
  | [] => some (-1, v, [])
  | .int n :: r => some (1, inj n, r)
  | .real _ :: _ => none
  | .junk :: r => some (0, v, .junk :: r)

/-- use of a variable that may be uninitialised -/
def useVar {A : Type} (v : Option A) : Out A := match v with | some a => .ok a | none => .ub

/-- outside the model becomes `fuel` -/
def outside {A : Type} (v : Option A) : Out A := match v with | some a => .ok a | none => .fuel

/-- the element loop polycap-source.c:328-331: `nelem` pairs into freshly allocated (uninitialised) arrays; reading
an unset weight in `wi[i] /= 100.0` is undefined behaviour.  The atomic number of a pair that was cut off is unset, too, but is read only
later; as the weight of that pair is then unset as well, this changes nothing. -/
def scanElems : Nat → List (Tok α) → Out (List Int × List α × List (Tok α))
  | 0, ts => .ok ([], [], ts)
  | n + 1, ts => do
    let a ← outside (scanInt some ts none)
    let b := if a.1 = 1 then scanLf some a.2.2 none else (a.1, none, a.2.2)
    let w ← useVar b.2.1
    let z ← useVar a.2.1
    let r ← scanElems n b.2.2
    .ok (z :: r.1, w /. lit 100 :: r.2.1, r.2.2)

/-- `fscanf` of several numbers into uninitialised variables, `none` where a conversion did not happen -/
def scanMany : Nat → List (Tok α) → List (Option α) × List (Tok α)
  | 0, ts => ([], ts)
  | n + 1, ts =>
    let a := scanLf some ts none
    if a.1 = 1 then
      let r := scanMany n a.2.2
      (a.2.1 :: r.1, r.2)
    else (List.replicate (n + 1) none, a.2.2)

/-- all values set -/
def useAll : List (Option α) → Out (List α)
  | [] => .ok []
  | v :: vs => do
    let x ← useVar v
    let xs ← useAll vs
    .ok (x :: xs)

/-- the value of a profile made by `polycap_profile_new` (see `profileNew`), `none`: NULL -/
def profileValue (fit : Fit α) (a : ProfArgs α) : Option (Profile α) :=
  if profRejects a then none else (profExt fit a).map fun f => ⟨profNmax, profZ a, profCap a, f⟩

/-- The parts of the reader that are external to this model: the conversion `(size_t) x` of polycap-source.c:334, the polynomial
fit, and the profile read from three named files (polycap-source.c:353-367; with the rest of the input). -/
structure FileEnv (α : Type) where
  trunc : α → Nat
  fit : Fit α
  profFiles : List (Tok α) → EArg → Option (Profile α) × EArg × List (Tok α)

/-- polycap-source.c:345-367: the profile; `none`: NULL was returned (and the error reported there) -/
def scanProfile (env : FileEnv α) (type : Int) (ts : List (Tok α)) (e : EArg) : Out (Option (Profile α) × EArg × List (Tok α)) :=
  if type = 0 ∨ type = 1 ∨ type = 2 then do
    let m := scanMany 7 ts
    match ← useAll m.1 with
    | [l, eu, ed, iu, id, fu, fd] =>
      let p := profileValue env.fit ⟨type, l, eu, ed, iu, id, fu, fd⟩
      .ok (p, if p.isNone then e.set .invalidArgument else e, m.2)
    | _ => .ub
  else .ok (env.profFiles ts e)

/-- final checks, polycap-source.c:380-434 -/
def fileRejects (S : Src α) (D : Descr α) (open_area : α) : Bool :=
  S.d_source <. lit 0 || S.src_x <. lit 0 || S.src_y <. lit 0 || S.energies.isEmpty || S.energies.any energyBad ||
  decide (D.n_cap < 1) || open_area <. lit 0 || open_area >. lit 1 || D.iz.isEmpty ||
  D.iz.any (fun z => decide (z < 1 ∨ z > 94)) || D.density <. lit 0

/-- polycap-source.c:372-445: weight check (result ignored), open area, final checks, validation -/
def fileFinish (S : Src α) (D : Descr α) (e : EArg) : Option (Src α × Descr α × α) × EArg :=
  let cw := checkWeight D.wi e
  let D := { D with wi := cw.1 }
  let oa := openArea (D.prof.cap 0) (D.prof.ext 0) D.n_cap
  if fileRejects S D oa then (none, cw.2.set .invalidArgument)
  else
    let v := validateE (some D.prof) D.n_cap cw.2
    if v.1 ≠ 1 then (none, v.2.clear.set .invalidArgument) else (some (S, D, oa), v.2)

/-- polycap-source.c:315-370, once the source members are read: composition, energies, profile, number of capillaries.
`S.energies` is filled here. -/
def fileBody (env : FileEnv α) (S : Src α) (sig_rough : α) (nelem : Nat) (ts : List (Tok α)) (e : EArg) :
    Out (Option (Src α × Descr α × α) × EArg) := do
  let el ← scanElems nelem ts
  let rho := scanLf id el.2.2 (lit 0)
  let m := scanMany 3 rho.2.2
  match ← useAll m.1 with
  | [e0, e1, de] => do
    let n := env.trunc ((e1 -. e0) /. de +. lit 1)
    let S := { S with energies := (List.range n).map fun i => e0 +. ofInt (i : Int) *. de }
    let np ← outside (scanInt id m.2 0)
    let ty ← outside (scanInt some np.2.2 none)
    let type ← useVar ty.2.1
    let pr ← scanProfile env type ty.2.2 e
    match pr.1 with
    | none => .ok (none, pr.2.1)
    | some p => do
      let nc ← outside (scanInt id pr.2.2 0)
      .ok (fileFinish S ⟨sig_rough, nc.2.1, el.1, el.2.1, rho.2.1, p⟩ pr.2.1)
  | _ => .ub

/-- `polycap_source_new_from_file` on a readable file with the given tokens, polycap-source.c:267-445.  The members of the `calloc`ed
structs are zero until set; only a return value 0 of `fscanf` is treated as an error, not EOF. -/
def sourceFromTokens (env : FileEnv α) (ts : List (Tok α)) (e : EArg) : Out (Option (Src α × Descr α × α) × EArg) :=
  let z : α := lit 0
  let bad : Out (Option (Src α × Descr α × α) × EArg) := .ok (none, e.set .io)
  let a := scanLf id ts z
  if a.1 = 0 then bad else
  let b := scanLf id a.2.2 z
  if b.1 = 0 then bad else
  let c := scanLf2 id b.2.2 z z
  if c.1 = 0 then bad else
  let d := scanLf2 id c.2.2.2 z z
  if d.1 = 0 then bad else
  let f := scanLf2 id d.2.2.2 z z
  if f.1 = 0 then bad else
  let g := scanLf id f.2.2.2 z
  if g.1 = 0 then bad else do
  let n ← outside (scanInt id g.2.2 0)
  if n.1 = 0 then bad else
  fileBody env ⟨b.2.1, c.2.1, c.2.2.1, d.2.1, d.2.2.1, f.2.1, f.2.2.1, g.2.1, []⟩ a.2.1 (n.2.1 % 4294967296).toNat n.2.2 e

/-- with the NULL guard and the failing `fopen`, polycap-source.c:244-274 -/
def sourceFromFile (env : FileEnv α) (filename : Option String) (fs : String → Option (List (Tok α))) (e : EArg) :
    Out (Option (Src α × Descr α × α) × EArg) :=
  match filename with
  | none => .ok (none, e.set .invalidArgument)
  | some f => match fs f with
    | none => .ok (none, e.set .io)
    | some ts => sourceFromTokens env ts e

end Polycap
