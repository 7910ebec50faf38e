import Verif.Geom

/-!
# `polycap_capil_segment`, `/repo/src/polycap-capil.c:52-255`
-/
namespace Polycap
open CNum

variable {α : Type} [CNum α]

/-- Guards of polycap-capil.c:65-100 (the two NULL guards are not modelled: all callers pass addresses
of local variables). `true`: rejected with -1. -/
def segRejects (c0 c1 : V3 α) (r0 r1 : α) (p0 p1 d : V3 α) : Bool :=
  c0.z <. lit 0 || c1.z <. lit 0 || r0 <. lit 0 || r1 <. lit 0 || d.z <. lit 0 ||
  (c0.z !=. p0.z || c1.z !=. p1.z) || c1.z <=. c0.z

/-- componentwise difference -/
def vsub (a b : V3 α) : V3 α := ⟨a.x -. b.x, a.y -. b.y, a.z -. b.z⟩

/-- `photon_dir.x/photon_dir.z - cap_dir.x/cap_dir.z` and the same for y, polycap-capil.c:119-121. -/
def segSlopes (pd cd : V3 α) : α × α := (pd.x /. pd.z -. cd.x /. cd.z, pd.y /. pd.z -. cd.y /. cd.z)

/-- `(cap_rad1-cap_rad0)/(cap_coord1.z-cap_coord0.z)` -/
def segTaper (c0 c1 : V3 α) (r0 r1 : α) : α := (r1 -. r0) /. (c1.z -. c0.z)

/-- coefficient `a`, polycap-capil.c:119-121 -/
def segA (c0 c1 : V3 α) (r0 r1 : α) (pd cd : V3 α) : α :=
  let s := segSlopes pd cd
  let k := segTaper c0 c1 r0 r1
  s.1 *. s.1 +. s.2 *. s.2 -. k *. k

/-- coefficient `b`, polycap-capil.c:122 -/
def segB (c0 c1 : V3 α) (r0 r1 : α) (p0 pd cd : V3 α) : α :=
  let s := segSlopes pd cd
  let k := segTaper c0 c1 r0 r1
  lit 2 *. (p0.x -. c0.x) *. s.1 +. lit 2 *. (p0.y -. c0.y) *. s.2 -. lit 2 *. r0 *. k

/-- coefficient `c`, polycap-capil.c:123 -/
def segC (c0 : V3 α) (r0 : α) (p0 : V3 α) : α :=
  (p0.x -. c0.x) *. (p0.x -. c0.x) +. (p0.y -. c0.y) *. (p0.y -. c0.y) -. r0 *. r0

/-- "is not the right solution": polycap-capil.c:134,136,142 -/
def segBad (z z0 z1 cur : α) : Bool := z <. z0 || z -. cur <. lit (1/10^5) || z >. z1

/-- Solve and choose, polycap-capil.c:124-171: an error code, or `interact_coord.z`. -/
def segSolve (a b c p0z z0 z1 cur : α) : Int ⊕ α :=
  let discr := b *. b -. lit 4 *. a *. c
  if discr <. lit 0 then .inl (-2)
  else if discr ==. lit 0 then .inr (p0z +. (lit (-1) *. b) /. (lit 2 *. a))
  else
    let dist1 := (lit (-1) *. b +. sqrt discr) /. (lit 2 *. a)
    let dist2 := (lit (-1) *. b -. sqrt discr) /. (lit 2 *. a)
    if segBad (p0z +. dist1) z0 z1 cur then
      if segBad (p0z +. dist2) z0 z1 cur then .inl (-3) else .inr (p0z +. dist2)
    else if segBad (p0z +. dist2) z0 z1 cur then .inr (p0z +. dist1)
    else if p0z +. dist2 -. cur <. p0z +. dist1 -. cur then .inr (p0z +. dist2)
    else .inr (p0z +. dist1)

/-- Surface normal, polycap-capil.c:223-246. `d_proj`: distance along `pd` from `p0`; `v`: interaction
point. -/
def segNormal (c0 : V3 α) (r0 r1 : α) (p0 pd cd v : V3 α) (d_proj : α) : V3 α :=
  let d_cap := sqrt (scalar cd cd)
  let rel := vsub p0 c0
  let f := (d_proj +. scalar rel cd /. scalar pd cd) /. (scalar cd cd /. scalar pd cd)
  let foot : V3 α := ⟨c0.x +. f *. cd.x, c0.y +. f *. cd.y, c0.z +. f *. cd.z⟩
  let n := vsub v foot
  let d_inter := sqrt (scalar n n)
  let gam := atan ((r0 -. r1) /. d_cap)
  let sga := sin gam
  let cga := cos gam
  vnorm ⟨cga *. n.x /. d_inter +. sga *. cd.x /. d_cap,
         cga *. n.y /. d_inter +. sga *. cd.y /. d_cap,
         cga *. n.z /. d_inter +. sga *. cd.z /. d_cap⟩

/-- `polycap_capil_segment`: return value, new `*photon_coord`, new `*surface_norm`.
(Error reports of the guards are not tracked.) -/
def segment (c0 c1 : V3 α) (r0 r1 : α) (p0 p1 d cur norm : V3 α) : Int × V3 α × V3 α :=
  if segRejects c0 c1 r0 r1 p0 p1 d then (-1, cur, norm) else
  let zero : V3 α := ⟨lit 0, lit 0, lit 0⟩
  let pd := vnorm d
  let cd := vsub c1 c0
  match segSolve (segA c0 c1 r0 r1 pd cd) (segB c0 c1 r0 r1 p0 pd cd) (segC c0 r0 p0) p0.z c0.z c1.z cur.z with
  | .inl code => (code, cur, zero)
  | .inr z =>
    if z >. c1.z then (-4, cur, zero)
    else if z <. c0.z || z -. cur.z <. lit (1/10^5) then (-5, cur, zero)
    else
      let d_proj := (z -. p0.z) /. pd.z
      if d_proj <. lit (1/10^10) then (-6, cur, zero)
      else
        let v : V3 α := ⟨p0.x +. d_proj *. pd.x, p0.y +. d_proj *. pd.y, z⟩
        (1, v, segNormal c0 r0 r1 p0 pd cd v d_proj)

end Polycap
