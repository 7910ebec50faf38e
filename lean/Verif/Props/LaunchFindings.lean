import Verif.Props.Zigzag

/-!
# C24 (what "transmitted" means), C25, C26
-/
namespace Polycap
open CNum

/-! ## C25: a transmitted photon comes with its weights -/

/-- **C25**, the part that holds: a photon launched in a capillary that returns 1 (or 0) comes with one weight
per energy.  Missing: photons launched inside glass beyond the entrance with leak calculation
(`launch_weights_missing`). -/
theorem launch_weights_filled_partial (lib : Xray ℝ) (D : Descr ℝ) (leak : Bool) (fuel k : Nat) (P : Photon ℝ) (es : List ℝ)
    (hcs : ∀ z e, 0 ≤ lib.csTotal z e) (hs : scatfRejects D es = false) (g : Grid D.prof) (hn : 1 ≤ D.n_cap)
    (h0 : 0 ≤ P.startC.z) (h1 : P.startC.z ≤ D.prof.z D.prof.nmax) (R rad : ℝ) (hR : ValueAt D.prof D.prof.ext P.startC.z R)
    (hrad : ValueAt D.prof D.prof.cap P.startC.z rad) (hpos : 0 < R)
    (hg : leak = false ∨ P.startC.z = 0 ∨ ¬ InGlass D.n_cap R rad P.startC)
    (o : WOut ℝ) (P' : Option (Photon ℝ))
    (h : launch lib (some D) leak fuel k (some P) (some es) true = .ok (1, o, P')) :
    ∃ ws, o = .filled ws ∧ ws.length = es.length ∧ ∀ w ∈ ws, 0 ≤ w ∧ w ≤ 1 := by
  obtain ⟨-, -, hes, hb, -⟩ := (scatf_accepts_iff D es).mp hs
  have hin : ¬ Outside D.n_cap R P.startC := by
    intro ho
    have := (launch_outside_iff lib D leak fuel k P es hes hb g hn h0 h1 R hR hpos 1 o P' h).mpr ho
    omega
  obtain ⟨k1, k2, k3, k4⟩ := launch_glass lib D leak fuel k P es hes hb g hn h0 h1 R rad hR hrad hpos hin 1 o P' h
  have hng : ¬ InGlass D.n_cap R rad P.startC := by
    intro hG
    rcases hg with h | h | h
    · have := k2 hG (Or.inl h); omega
    · have := k2 hG (Or.inr h); omega
    · exact h hG
  obtain ⟨-, ws, rfl⟩ := k4 hng
  exact ⟨ws, rfl, launch_weights lib D leak fuel k P es hcs hs 1 ws P' h⟩

/-- **C25** is false of the code: launched inside the glass half way down the tube with leak calculation, the photon is
reported transmitted (1) with a weights array nothing was written to. -/
theorem launch_weights_missing : ∃ P', launch exLib (some exD) true 0 1 (some (exP ⟨3/2, 0, 1/2⟩ ⟨0, 0, 1⟩ 0)) (some [10]) true =
    .ok (1, .uninit, some P') := by
  have hb : ¬ ArgsBad (some exD) (some (exP ⟨3/2, 0, 1/2⟩ ⟨0, 0, 1⟩ 0)) (some [(10:ℝ)]) true :=
    not_argsBad (by simp) (by intro e he; simp at he; subst he; norm_num)
  obtain ⟨D', P'', es', e1, e2, e3, -, -, -, h'⟩ :=
    launch_valid exLib (some exD) true 0 1 (some (exP ⟨3/2, 0, 1/2⟩ ⟨0, 0, 1⟩ 0)) (some [(10:ℝ)]) true hb
  injection e1 with e1; injection e2 with e2; injection e3 with e3; subst e1 e2 e3
  rw [h']
  have e0 : ((0:ℚ):ℝ) = 0 := by norm_num
  have hs32 : Real.sqrt ((3/2:ℝ) ^ 2 + 0 ^ 2) = 3/2 := by
    rw [show ((3/2:ℝ) ^ 2 + 0 ^ 2) = (3/2) ^ 2 by norm_num]; exact Real.sqrt_sq (by norm_num)
  have hc := ex_cap (c := ⟨3/2, 0, 1/2⟩) (by norm_num) (by norm_num)
  have hw : startsInWall exD (0, 0) ⟨3/2, 0, 1/2⟩ = true := by
    rw [ex_glass (by norm_num) (by norm_num), hs32]; norm_num
  have hz0 : (((1/2:ℝ)) ==. lit 0) = false := by
    simp only [real_beq, real_lit, e0, decide_eq_false_iff_not]; norm_num
  have hz1 : (((1/2:ℝ)) >. lit 0) = true := by
    simp only [gt, real_lt, real_lit, e0, decide_eq_true_eq]; norm_num
  generalize hI : launchInit exLib exD [10] (exP ⟨3/2, 0, 1/2⟩ ⟨0, 0, 1⟩ 0) = Q
  have q1 : Q.startC = ⟨3/2, 0, 1/2⟩ := by rw [← hI]; rfl
  have q2 : Q.exitC = ⟨3/2, 0, 1/2⟩ := by rw [← hI]; rfl
  have q3 : Q.exitD = ⟨0, 0, 1⟩ := by
    rw [← hI]; show vnorm (vnorm _) = _
    rw [show (exP ⟨3/2, 0, 1/2⟩ ⟨0, 0, 1⟩ 0).startD = ⟨0, 0, 1⟩ from rfl, vnorm_z, vnorm_z]
  have q4 : Q.coef = true := by
    rw [← hI]; show (!scatfRejects exD [10]) = true
    rw [ex_scatf]; rfl
  have hwall : ∃ w : Wall ℝ, traceWall exD 0 ⟨3/2, 0, 1/2⟩ ⟨0, 0, 1⟩ = .ok w ∧ w.code = 2 := by
    have hns : nShells (α := ℝ) exD.n_cap = 0 := nShells_one
    have hzid : segIdFrom exD.prof.z 0 (1/2:ℝ) exD.prof.nmax = 0 := segId_zero _ _ _ 0 (by simp [exD, exProf]) (by intro i h1 h2; omega)
    have hge : (((1/2:ℝ)) >=. exD.prof.z exD.prof.nmax) = false := by
      simp only [ge, real_le, decide_eq_false_iff_not, exD, exProf]; norm_num
    have hext : wallExt exD.prof 0 (1/2:ℝ) = 2 := by
      unfold wallExt interpAt
      split
      · rw [linAt_interp]; simp [linAt, exD, exProf]
      · rfl
    have hsq : (sqrt (((3/2:ℝ)) *. (3/2) +. (0:ℝ) *. 0) >. (2:ℝ)) = false := by
      simp only [real_sqrt, real_mul, real_add, gt, real_lt, decide_eq_false_iff_not, not_lt]
      rw [show (3/2 * (3/2) + 0 * 0 : ℝ) = (3/2) ^ 2 by norm_num, Real.sqrt_sq (by norm_num)]; norm_num
    unfold traceWall
    simp only [hge, hzid, hext, hns, hsq, Bool.false_eq_true, if_false, if_true]
    rw [show exD.prof.nmax - 1 - (0 + 1) = 0 from rfl]
    have hseg : (segment (axisAt exD.prof 0 0 0 0) (axisAt exD.prof 0 0 0 (0 + 1)) (exD.prof.cap 0) (exD.prof.cap (0 + 1))
      (atGrid exD.prof ⟨3/2, 0, 1/2⟩ ⟨0, 0, 1⟩ 0) (atGrid exD.prof ⟨3/2, 0, 1/2⟩ ⟨0, 0, 1⟩ (0 + 1)) ⟨0, 0, 1⟩ ⟨3/2, 0, 1/2⟩ ⟨lit 0, lit 0, lit 0⟩).1 ≠ 1 := by
      intro hs
      generalize hseg : segment (axisAt exD.prof 0 0 0 0) (axisAt exD.prof 0 0 0 (0 + 1)) (exD.prof.cap 0) (exD.prof.cap (0 + 1))
        (atGrid exD.prof ⟨3/2, 0, 1/2⟩ ⟨0, 0, 1⟩ 0) (atGrid exD.prof ⟨3/2, 0, 1/2⟩ ⟨0, 0, 1⟩ (0 + 1)) ⟨0, 0, 1⟩ ⟨3/2, 0, 1/2⟩ ⟨lit 0, lit 0, lit 0⟩ = s at hs
      obtain ⟨s1, v, n⟩ := s
      simp only at hs
      subst hs
      have hg : genCoeff (axisAt exD.prof 0 0 0 0) (axisAt exD.prof 0 0 0 (0 + 1)) (exD.prof.cap 0) (exD.prof.cap (0 + 1)) ⟨0, 0, 1⟩ ≠ 0 := by
        simp only [genCoeff, axisAt, exD, exProf]
        norm_num
      obtain ⟨l, -, z0, z1, -, w, -⟩ := segment_sound _ _ _ _ _ _ _ _ _ _ _ (by norm_num) hg hseg
      rw [l] at w
      simp only [OnWall, axisAt, lineAt, atGrid_eq, linAt, exD, exProf] at w
      simp only [axisAt, exD, exProf] at z0 z1
      norm_num at w z0 z1
      nlinarith
    unfold wallSegs
    simp only [hseg, if_false]
    unfold wallEnd
    simp only [ne_eq, hseg, not_false_eq_true, if_true]
    have hat : atGrid exD.prof ⟨3/2, 0, 1/2⟩ ⟨0, 0, 1⟩ exD.prof.nmax = ⟨3/2, 0, 1⟩ := by
      rw [atGrid_eq]; simp [exD, exProf]
    unfold wallExit
    simp only [hat]
    rw [show exD.prof.ext exD.prof.nmax = 2 from rfl, boundary_contains_disc 2 (3/2) 0 (by norm_num) (by norm_num), if_neg (by decide)]
    exact ⟨_, rfl, rfl⟩
  obtain ⟨w, hw1, hw2⟩ := hwall
  unfold launchBody
  simp only [hI, q1, hc, hw, if_true, hz0, hz1, Bool.and_false, Bool.and_true, Bool.false_eq_true, if_false, q2, q3, vnorm_z, hw1, Out.bind_ok]
  unfold launchWall
  rw [if_neg (by rw [hw2]; decide), if_neg (by simp [q4]), if_neg (by rw [hw2]; decide), if_pos hw2]
  exact ⟨_, rfl⟩

/-! ## C26: launching is repeatable -/

/-- **C26** is false of the code: after a first launch the photon object carries its travelled distance into the second
launch. -/
theorem launch_not_repeatable : ∃ (P P1 P2 : Photon ℝ) (ws : List ℝ),
    launch zLib (some zD) false 0 1 (some P) (some [10]) true = .ok (1, .filled ws, some P1) ∧
    launch zLib (some zD) false 0 1 (some P1) (some [10]) true = .ok (1, .filled ws, some P2) ∧ P1.d_travel < P2.d_travel := by
  obtain ⟨P1, h1, a1, a2, -, -, -, a3⟩ := z_launch 0 0 (exP ⟨0, 0, 0⟩ ⟨zs, 0, zc⟩ 0) rfl rfl
  obtain ⟨P2, h2, -, -, -, -, -, b3⟩ := z_launch 0 0 P1 a1 a2
  exact ⟨_, P1, P2, [1], h1, h2, by rw [b3]; linarith [zLen_pos]⟩

/-- fields describing where a photon started -/
structure SameStart (P P' : Photon ℝ) : Prop where
  startC : P'.startC = P.startC
  startD : P'.startD = P.startD
  startE : P'.startE = P.startE

theorem trace_start (D : Descr ℝ) (leak : Bool) (fuel k : Nat) (capx capy : Nat → ℝ) (ix : Nat) (P : Photon ℝ)
    (hs : vnorm P.startD = P.startD) (x : Int × Nat × Photon ℝ)
    (h : trace D leak fuel k capx capy ix P = .ok x) : SameStart P x.2.2 := by
  unfold trace capilTrace at h
  simp only [hs] at h
  split at h
  · injection h with h; subst h; exact ⟨rfl, rfl, rfl⟩
  · injection h with h; subst h; exact ⟨rfl, rfl, rfl⟩
  · unfold traceHit at h
    simp only at h
    split at h
    · injection h with h; subst h; exact ⟨rfl, rfl, rfl⟩
    split at h
    · simp at h
    split at h
    · injection h with h; subst h; exact ⟨rfl, rfl, rfl⟩
    split at h
    · injection h with h; subst h; exact ⟨rfl, rfl, rfl⟩
    rw [Out.bind_eq_ok] at h
    obtain ⟨y, hy, h⟩ := h
    obtain ⟨f, -⟩ := reflect_frame _ _ _ _ _ _ y.1 y.2 hy
    injection h with h; subst h
    unfold afterReflect
    split_ifs <;> exact ⟨f.startC, f.startD, f.startE⟩

theorem traceLoop_start (D : Descr ℝ) (leak : Bool) (fuel kk : Nat) (capx capy : Nat → ℝ) :
    ∀ (k : Nat) (iesc : Int) (ix : Nat) (P : Photon ℝ) (x : Int × Nat × Photon ℝ), vnorm P.startD = P.startD →
      traceLoop (trace D leak fuel kk capx capy) k iesc ix P = .ok x → SameStart P x.2.2 := by
  intro k
  induction k with
  | zero => intro iesc ix P x hs h; simp only [traceLoop] at h; injection h with h; subst h; exact ⟨rfl, rfl, rfl⟩
  | succ k ih =>
    intro iesc ix P x hs h
    unfold traceLoop at h
    rw [Out.bind_eq_ok] at h
    obtain ⟨y, hy, h⟩ := h
    have f := trace_start D leak fuel kk capx capy ix P hs y hy
    split at h
    · injection h with h; subst h; exact f
    · have g := ih _ _ _ _ (by rw [f.startD]; exact hs) h
      exact ⟨g.1.trans f.1, g.2.trans f.2, g.3.trans f.3⟩

/-- the start values survive a launch, the start direction normalised -/
theorem launch_start (lib : Xray ℝ) (D : Descr ℝ) (leak : Bool) (fuel k : Nat) (P : Photon ℝ) (es : List ℝ)
    (hes : es ≠ []) (hb : ∀ e ∈ es, 1 ≤ e ∧ e ≤ 100) (hd : dot P.startD P.startD ≠ 0) (c : Int) (o : WOut ℝ) (P' : Photon ℝ)
    (h : launch lib (some D) leak fuel k (some P) (some es) true = .ok (c, o, some P')) :
    P'.startC = P.startC ∧ P'.startD = vnorm P.startD ∧ P'.startE = P.startE := by
  have hv : vnorm (vnorm P.startD) = vnorm P.startD := vnorm_unit _ (vnorm_dot _ hd)
  have key : SameStart (launchInit lib D es P) P' := by
    obtain ⟨Q, hQ, he⟩ := launch_ended hes hb h
    injection hQ with hQ; subst hQ
    cases he with
    | outside => exact ⟨rfl, rfl, rfl⟩
    | glass => exact ⟨rfl, rfl, rfl⟩
    | front qr hc hw hl hz x hx =>
      obtain ⟨f, -⟩ := reflect_frame _ _ _ _ _ _ x.1 x.2 hx
      exact ⟨f.1, f.2, f.3⟩
    | within qr hc hw hl hz hz' w hx c o P' hy =>
      unfold launchWall at hy
      simp only at hy
      split at hy
      · injection hy with hy; injection hy with h1 hy; injection hy with h2 h3; subst h3; exact ⟨rfl, rfl, rfl⟩
      split at hy
      · simp at hy
      split at hy
      · injection hy with hy; injection hy with h1 hy; injection hy with h2 h3; subst h3; exact ⟨rfl, rfl, rfl⟩
      split at hy
      · injection hy with hy; injection hy with h1 hy; injection hy with h2 h3; subst h3; exact ⟨rfl, rfl, rfl⟩
      rw [Out.bind_eq_ok] at hy
      obtain ⟨x, ht, hy⟩ := hy
      have f := traceLoop_start D leak fuel k _ _ _ _ _ _ _ hv ht
      split at hy
      · injection hy with hy; injection hy with h1 hy; injection hy with h2 h3; subst h3; exact ⟨f.1, f.2, f.3⟩
      · injection hy with hy; injection hy with h1 hy; injection hy with h2 h3; subst h3
        simp only [finish, clearWall, recordLaunch]
        split_ifs <;> exact ⟨f.1, f.2, f.3⟩
    | inside qr hc hw c o P' hy =>
      obtain ⟨iesc, ix, Q', ht, -, -, -, -, -, rfl⟩ := launchInside_inv _ _ _ _ _ _ _ _ _ hy
      have f := traceLoop_start D leak fuel k _ _ _ _ _ _ _ hv ht
      exact ⟨f.1, f.2, f.3⟩
  exact ⟨key.1, key.2, key.3⟩

/-- **C26**, the part that holds: after a launch, a second launch with the same arguments gives the same return code,
weights and photon, provided the two fields that a launch does not reset (the travelled distance and the exit
polarisation) are put back. -/
theorem launch_repeatable_partial (lib : Xray ℝ) (D : Descr ℝ) (leak : Bool) (fuel k : Nat) (P : Photon ℝ) (es : List ℝ)
    (hes : es ≠ []) (hb : ∀ e ∈ es, 1 ≤ e ∧ e ≤ 100) (hd : dot P.startD P.startD ≠ 0) (c : Int) (o : WOut ℝ) (P' : Photon ℝ)
    (h : launch lib (some D) leak fuel k (some P) (some es) true = .ok (c, o, some P')) :
    launch lib (some D) leak fuel k (some { P' with d_travel := P.d_travel, exitE := P.exitE }) (some es) true = .ok (c, o, some P') := by
  obtain ⟨s1, s2, s3⟩ := launch_start lib D leak fuel k P es hes hb hd c o P' h
  have hv : vnorm (vnorm P.startD) = vnorm P.startD := vnorm_unit _ (vnorm_dot _ hd)
  have hI : launchInit lib D es { P' with d_travel := P.d_travel, exitE := P.exitE } = launchInit lib D es P := by
    unfold launchInit
    simp only [s1, s2, s3, hv]
  have e : ∀ Q : Photon ℝ, launch lib (some D) leak fuel k (some Q) (some es) true =
      (launchBody lib D leak fuel k Q es).bind fun x => .ok (x.1, x.2.1, some x.2.2) := by
    intro Q
    obtain ⟨D', P'', es', e1, e2, e3, -, -, -, h'⟩ := launch_valid lib (some D) leak fuel k (some Q) (some es) true (not_argsBad hes hb)
    injection e1 with e1; injection e2 with e2; injection e3 with e3; subst e1 e2 e3
    rw [h']; rfl
  rw [← h, e, e]
  congr 1
  unfold launchBody
  rw [hI]

/-! ## C24: what 1 means -/

/-- **C24** finding: `polycap_photon_launch` reports a photon as transmitted after as many reflections as there are profile
points, wherever it is: here it is half way down the tube, moving on towards the wall. -/
theorem launch_transmitted_early : ∃ (P P' : Photon ℝ) (ws : List ℝ),
    launch zLib (some zD) false 0 1 (some P) (some [10]) true = .ok (1, .filled ws, some P') ∧
    P'.exitC.z < zD.prof.z zD.prof.nmax ∧
    ∃ z, P'.exitC.z < z ∧ z < zD.prof.z zD.prof.nmax ∧ OnWall ⟨0, 0, 0⟩ ⟨0, 0, 3⟩ zR zR (lineAt P'.exitC P'.exitD z) := by
  obtain ⟨P1, h1, -, -, a1, a2, -, -⟩ := z_launch 0 0 (exP ⟨0, 0, 0⟩ ⟨zs, 0, zc⟩ 0) rfl rfl
  refine ⟨_, P1, [1], h1, ?_, 5/2, ?_, ?_, ?_⟩
  · rw [a1]; norm_num [zD, zProf]
  · rw [a1]; norm_num
  · norm_num [zD, zProf]
  · rw [a1, a2]; norm_num [OnWall, lineAt, linAt, zR, zs, zc]

end Polycap
