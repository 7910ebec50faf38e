import Verif.Photon
/-!
Conformance run (a test of the model, not a proof): executes the model of the launch code with `Float` on the
inputs of the project's own unit tests (/repo/tests/capil.c, photon.c, leaks.c) and compares with the values
those tests assert.  Run by tools/conform/run.sh.  xraylib is not installed: at 10 keV the totals asserted by
tests/photon.c (scatf 0.503696, amu 42.544635) are used, at 17.3, 40 and 80 keV approximate values, so weights at
those energies are compared with a relative tolerance of 1e-3 only.
-/
open Polycap Polycap.CNum
abbrev F := Float
def mem (a : ProfArgs F) : Profile F :=
  let e := ((profExt (fun _ => (0,0,0)) a).getD (fun _ => 0))
  let A := (Array.range 1000).map e
  let Z := (Array.range 1000).map (profZ a)
  let C := (Array.range 1000).map (profCap a)
  ⟨999, fun i => Z[i]!, fun i => C[i]!, fun i => A[i]!⟩
def ell : Profile F := mem ⟨2, 9, 0.2065, 0.0585, 0.00035, 9.9153e-5, 1000, 0.5⟩
def con : Profile F := mem ⟨0, 9, 0.5, 0.54, 0.0014, 0.0014*(0.54/0.5), 50, 1e5⟩
def D (p : Profile F) (sig : F) (n : Int) : Descr F := ⟨sig, n, [8,14], [0.53,0.47], 2.23, p⟩
/-- stub of xraylib giving the asked totals -/
def lib (mu sc : F) : Xray F := ⟨fun _ _ => mu / 2.23, fun z _ => sc * (if z = 8 then 15.9994 else 28.0855) - Float.ofInt z,
  fun z => if z = 8 then 15.9994 else 28.0855⟩
def V (x y z : F) : V3 F := ⟨x,y,z⟩
def sv (v : V3 F) : String := s!"({v.x*1e3}e-3, {v.y*1e3}e-3, {v.z})"
def ph (c d e : V3 F) (en : F) (w : F := 1) (mu : F := 42.544635) (sc : F := 0.503696): Photon F := { startC := c, startD := d, startE := e, exitC := c, exitD := d, exitE := e, i_refl := 0, d_travel := 0, ext := [], int := [], chans := [⟨en, w, mu, sc⟩], coef := true }
def sl (l : Leak F) : String := s!"\n     {sv l.coords} {sv l.dir} n={l.n_refl} w={l.weight}"
def sP (p : Photon F) : String := s!"c={sv p.exitC} d={sv p.exitD} e={sv p.exitE} n={p.i_refl} t={p.d_travel} w={p.chans.map (·.w)} ext={p.ext.map sl} int={p.int.map sl}"
def so {A} (f : A → String) : Out A → String | .ok a => f a | .ub => "UB" | .fuel => "FUEL"

def la2 (Ds : Descr F) (en mu sc : F) (leak : Bool) (c d : V3 F) (E : V3 F) := launch (lib mu sc) (some Ds) leak 100000 2000 (photonNew c d E) (some [en]) true
def DL := D ell 0 200000
def pi2 : F := 1.5707963267948966
/-- checks of one test: name, list of (got, want, tolerance) -/
abbrev Chk := String × List (F × F × F)
def report (l : List Chk) : IO Unit := do
  for (n, cs) in l do
    let bad := cs.filter fun (g, w, t) => !((g - w).abs < t)
    IO.println s!"{if bad.isEmpty then "ok  " else "FAIL"} {n}: {cs.length} values{if bad.isEmpty then "" else s!" {bad}"}"
def v3 (g : V3 F) (x y z t : F) : List (F × F × F) := [(g.x, x, t), (g.y, y, t), (g.z, z, t)]
def ofI (i : Int) : F := Float.ofInt i
def eqI (g w : Int) : F × F × F := (ofI g, ofI w, 0.5)
def cLeak (l : Option (Leak F)) (x y z dx dy dz w t : F) : List (F × F × F) := match l with
  | some l => v3 l.coords x y z 6e-7 ++ v3 l.dir dx dy dz 6e-7 ++ [(l.weight.headD 0, w, t)]
  | none => [(0, 1, 0.5)]
def oI (o : Out (Int × WOut F × Option (Photon F))) (f : Int → List F → Photon F → List (F × F × F)) : List (F × F × F) := match o with
  | .ok (c, w, some P) => f c (match w with | .filled w => w | _ => []) P
  | _ => [(0, 1, 0.5)]
def oR {A} (o : Out A) (f : A → List (F × F × F)) : List (F × F × F) := match o with | .ok a => f a | _ => [(0, 1, 0.5)]
def w0 (P : Photon F) : F := (P.chans.map (·.w)).headD 0

def segT : Chk := let s := segment (V 0 0 0) (V 0 0 0.1) 0.005 0.005 (V 0 0 0) (V 0.005 (-0.005) 0.1) (V 0.005 (-0.005) 0.1) (V 0 0 0) (V 0 0 0)
  ("capil.c test_polycap_capil_segment", [eqI s.1 1] ++ v3 s.2.1 0.003536 (-0.003536) 0.070711 1e-5 ++ v3 s.2.2 0.707107 (-0.707107) 0 1e-5)
def polT : Chk := ("capil.c test_polycap_refl_polar",
  [(pi2, 0.0), (2e-3, 0.984522), (3.1e-3, 0.496310)].flatMap fun (al, want) => [V 1 0 0, V 0 1 0, V 0.707107 0.707107 0].flatMap fun E =>
    let r := reflPolar 10 2.23 0.503696 42.544677 (V 0 1 0) (V 0 (Float.sin al) (Float.cos al)) E (V 0 0 0)
    (r.1, want, 1e-5) :: v3 r.2.1 E.x E.y E.z 1e-5)
def refT (leak : Bool) (codes : List Int) (name : String) : Chk := (name,
  (List.zip [(2e-3, 0.984522), (3.1e-3, 0.496310), (pi2, 0), (2e-2, 0.000035)] codes).flatMap fun ((al, w), code) =>
    let nx := 0.707107; let x := Float.cos (pi2 - al) / (nx + nx)
    oR (reflect DL leak 100000 2000 (V nx (-nx) 0) {ph (V 0 0 0) (V 0.005 (-0.005) 0.1) (V 0.5 0.5 0) 10 with exitD := V x (-x) (Float.sqrt (1 - 2*x*x))})
      fun r => [eqI r.1 code, (w0 r.2, w, 1e-5)])
def traT (leak : Bool) (name : String) : Chk :=
  let t (ed : V3 F) (sd : V3 F) := trace DL leak 1000000 2000 (fun _ => 0) (fun _ => 0) 0 {ph (V 0 0 0) sd (V 0.5 0.5 0) 10 with exitD := ed}
  (name,
   oR (t (V 0.005 (-0.005) 0.1) (V 0.005 (-0.005) 0.1)) (fun r => [eqI r.1 0, eqI r.2.1 0, eqI r.2.2.i_refl 0, (w0 r.2.2, 0, 1e-4)] ++
     v3 r.2.2.exitD 0.049875 (-0.049875) 0.997509 1e-5 ++ v3 r.2.2.exitC 0.000247 (-0.000247) 0.004948 1e-5) ++
   oR (t (V 3e-5 3e-5 0.999) (V 0.005 (-0.005) 0.1)) (fun r => [eqI r.1 1, eqI r.2.1 552, eqI r.2.2.i_refl 1, (w0 r.2.2, 0.999585, 1e-5)] ++
     v3 r.2.2.exitD (-0.000069) (-0.000069) 1 1e-5 ++ v3 r.2.2.exitC 0.000149 0.000149 4.975778 1e-5) ++
   oR (t (V 0 0 1) (V 0 0 1)) (fun r => [eqI r.1 (-2), eqI r.2.2.i_refl 0]))
def bouT : Chk := ("photon.c test_polycap_photon_within_pc_boundary", [eqI (withinPcBoundary (-1:F) 0.025 0.025) (-1), eqI (withinPcBoundary (0.05:F) 0.025 0.025) 1,
  eqI (withinPcBoundary (0.05:F) 0.075 0.025) 0, eqI (withinPcBoundary (0.05:F) 0.05 0.05) 0])
def l10 (leak : Bool) (c d : V3 F) := la2 DL 10 42.544635 0.503696 leak c d (V 0.5 0.5 0)
def lauT : Chk := ("photon.c test_polycap_photon_launch",
  oI (l10 false (V 0.21 0 0) (V 0.005 (-0.005) 0.1)) (fun c _ _ => [eqI c (-2)]) ++
  oI (l10 false (V 0 0 0) (V 0.005 (-0.005) 0.1)) (fun c _ _ => [eqI c 0]) ++
  oI (l10 false (V 0 0 0) (V 0 0 1)) (fun c _ P => [eqI c 1, eqI P.i_refl 0, (P.d_travel, 0, 1e-6)] ++ v3 P.exitC 0 0 0 1e-5) ++
  oI (l10 false (V 0.15104418 0.087000430 0) (V 0 0 1)) (fun c _ _ => [eqI c 2]) ++
  oI (l10 false (V (-0.192065) (-0.022121) 0) (V 0 0 1)) (fun c _ _ => [eqI c 0]) ++
  oI (la2 (D con 5 45019) 17.3 8.5 0.5017 false (V 0.30026212 0.34431622 0) (V 0.00599358 0.00689407 0.99995629) (V 9.99982038e-01 (-4.13209039e-05) (-5.99342381e-03))) (fun c _ _ => [eqI c (-1)]))
def walT : Chk := ("leaks.c test_polycap_capil_trace_wall_leak",
  [((V 3.4999972129e-4 0 9.9997212889e-6), (V 0.00333 0 1), (1:Int), (0:Int), (1:Int), (0.029464:F)), (V 10e-5 0 8.9995, V 0 0 1, 2, 0, 0, 0.000507),
   (V 0.2061 0 0, V 1 0 1, 3, 0, 259, 0.012741), (V (-0.072064) (-0.008307) 8.783979, V 0.061332 0.004022 0.998109, 3, -32, -226, 0.062987)].flatMap
  fun (c, d, code, r, q, dist) => oR (traceWall DL 100000 c (vnorm d)) fun w => [eqI w.code code, eqI w.r r, eqI w.q q, (w.d, dist, 1e-6)])
def leaT : Chk := ("leaks.c test_polycap_photon_leak",
  oI (la2 DL 80 0.432 0.4994 true (V 0.000351 0 0) (V 1 1 1) (V 1 0 0)) (fun c _ P => [eqI c 2, eqI P.ext.length 1, eqI P.int.length 0] ++
    cLeak P.ext[0]? 0.135486 0.135135 0.135135 0.577350 0.577350 0.577350 0.5 0.5) ++
  oI (la2 DL 80 0.432 0.4994 true (V 0.0485 0 0) (V 0.001 0 1) (V 1 0 0)) (fun c w P => [eqI c 0, eqI P.ext.length 0, eqI P.int.length 1, (w.headD 0, 0.000001, 6e-7)] ++
    cLeak P.int[0]? 0.0575 0 9 0.001 0 1 0.280987 3e-4) ++
  oI (l10 true (V 0.21 0 0) (V 0.005 (-0.005) 0.1)) (fun c _ _ => [eqI c (-2)]) ++
  oI (l10 true (V 0 0 0) (V 0.005 (-0.005) 0.1)) (fun c _ P => [eqI c 0, eqI P.ext.length 0, eqI P.int.length 0]) ++
  oI (l10 true (V 0 0 0) (V 0 0 1)) (fun c _ P => [eqI c 1, eqI P.ext.length 0, eqI P.int.length 0] ++ v3 P.exitC 0 0 0 1e-5) ++
  oI (l10 true (V 0.15104418 0.087000430 0) (V 0 0 1)) (fun c _ P => [eqI c 2, eqI P.ext.length 0, eqI P.int.length 0]) ++
  oI (l10 true (V (-0.192065) (-0.022121) 0) (V 0 0 1)) (fun c _ P => [eqI c 0, eqI P.ext.length 6, eqI P.int.length 0] ++
    cLeak P.ext[0]? (-0.100817) (-0.011736) 8.189189 0.030894 0.002788 0.999519 0.000114 6e-7 ++
    cLeak P.ext[1]? (-0.088786) (-0.010707) 8.477477 0.040382 0.001195 0.999184 0.000221 6e-7 ++
    cLeak P.ext[2]? (-0.080614) (-0.009185) 8.648649 0.044555 0.005834 0.998990 0.057475 6e-7 ++
    cLeak P.ext[3]? (-0.073670) (-0.008600) 8.765766 0.052757 0.005362 0.998593 0.000697 6e-7 ++
    cLeak P.ext[4]? (-0.069819) (-0.007596) 8.828829 0.056571 0.010269 0.998346 0.000116 6e-7 ++
    cLeak P.ext[5]? (-0.066291) (-0.007668) 8.873874 0.063141 0.005784 0.997988 0.000607 6e-7) ++
  oI (la2 DL 40 1.0405 0.49957 true (V 0.0585 0 0) (V 0.001 0 1) (V 0.5 0.5 0)) (fun c _ P => [eqI c 0, eqI P.i_refl 4, (P.d_travel, 2.744994, 1e-6), eqI P.ext.length 2, eqI P.int.length 3] ++
    cLeak P.ext[0]? 0.067419 0 8.918919 0.001 0 1 0.042922 5e-5 ++ cLeak P.ext[1]? 0.058851 0 9 0.000146 0 1 0.001793 2e-6 ++
    cLeak P.int[0]? 0.048777 0 9 (-0.001078) 0 0.999999 0.000143 6e-7 ++ cLeak P.int[1]? 0.053113 0 9 (-0.000511) 0 1 0.000352 6e-7 ++
    cLeak P.int[2]? 0.027487 0 9 (-0.006149) 0 0.999981 0.000142 6e-7))
#eval report [segT, polT, refT false [1, 1, 0, 0] "capil.c test_polycap_capil_reflect", refT true [1, 1, -2] "leaks.c test_polycap_capil_reflect_leak",
  traT false "capil.c test_polycap_capil_trace", traT true "leaks.c test_polycap_capil_trace_leak", bouT, lauT, walT, leaT]
