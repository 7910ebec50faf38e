import Verif.Props.Polar
import Verif.Props.SimExample
import Verif.Props.GetterProps
import Verif.Props.PhotonObjProps

/-!
# C93: the polarisations recorded by a simulation
-/
namespace Polycap
open CNum
namespace PolarImage
open Polar

theorem round_abs (x : ℝ) : realRoundAway |x| = |realRoundAway x| := by
  unfold realRoundAway
  rw [if_pos (abs_nonneg x)]
  split_ifs with h
  · rw [abs_of_nonneg h, abs_of_nonneg (Int.floor_nonneg.2 (by linarith))]
  · push Not at h
    rw [abs_of_neg h, abs_neg, abs_of_nonneg (Int.floor_nonneg.2 (by linarith))]

theorem round_one {x : ℝ} (h : 1 / 2 ≤ x) (h' : x ≤ 1) : realRoundAway x = 1 := by
  unfold realRoundAway
  rw [if_pos (by linarith), Int.floor_eq_iff]
  push_cast
  constructor <;> linarith

theorem round_zero {x : ℝ} (h : |x| < 1 / 2) : realRoundAway x = 0 := by
  have h2 := abs_lt.mp h
  have : realRoundAway |x| = 0 := by
    unfold realRoundAway
    rw [if_pos (abs_nonneg x), Int.floor_eq_iff]
    push_cast
    constructor
    · have := abs_nonneg x; linarith
    · linarith
  rw [round_abs] at this
  exact abs_eq_zero.mp this

/-- what is recorded of an electric vector if the start vectors were orthogonal -/
theorem elecRound_ortho {E0 d0 : V3 ℝ} (h : dot E0 d0 = 0) (E d : V3 ℝ) :
    elecRound E0 d0 E d = (((realRoundAway (vnorm E).x : Int) : ℝ), ((realRoundAway (vnorm E).y : Int) : ℝ)) := by
  simp only [elecRound, scalar_real, h, real_acos, Real.arccos_zero, real_sin, Real.sin_pi_div_two, real_div, real_lit, real_mul, real_add, real_ofInt, real_roundI]
  norm_num

/-- the components of the electric vector of a generated photon -/
theorem components {a b : ℝ} {E d : V3 ℝ} (ha : 0 < a) (hd : dot d d = 1) (hE : dot E E = 1) (ho : dot E d = 0) (h : E = ⟨a + b * d.x, b * d.y, b * d.z⟩)
    (hx : |d.x| ≤ 1 / 2) (hy : |d.y| ≤ 1 / 2) : (1 / 2 ≤ E.x ∧ E.x ≤ 1) ∧ |E.y| < 1 / 2 := by
  subst h
  unfold dot at *
  simp only at *
  have hb : b = -(a * d.x) := by linear_combination ho - b * hd
  subst hb
  have hx2 : d.x ^ 2 ≤ 1 / 4 := by rw [← sq_abs]; nlinarith [abs_nonneg d.x]
  have hy2 : d.y ^ 2 ≤ 1 / 4 := by rw [← sq_abs]; nlinarith [abs_nonneg d.y]
  have h1 : a ^ 2 * (1 - d.x ^ 2) = 1 := by linear_combination hE - a ^ 2 * d.x ^ 2 * hd
  have hax : a ^ 2 ≤ 4 / 3 := by nlinarith [sq_nonneg a]
  have hex : 0 < a + -(a * d.x) * d.x := by nlinarith
  have hex2 : (a + -(a * d.x) * d.x) ^ 2 = 1 - d.x ^ 2 := by linear_combination (1 - d.x ^ 2) * h1
  refine ⟨⟨by nlinarith, by nlinarith [sq_nonneg d.x]⟩, ?_⟩
  rw [show (1 / 2 : ℝ) = |1 / 2| by rw [abs_of_pos]; norm_num]
  apply sq_lt_sq.mp
  have : (-(a * d.x) * d.y) ^ 2 = a ^ 2 * (d.x ^ 2 * d.y ^ 2) := by ring
  rw [this]
  have h3 : d.x ^ 2 * d.y ^ 2 ≤ 1 / 16 := by nlinarith [sq_nonneg d.x, sq_nonneg d.y]
  have h4 : 0 ≤ d.x ^ 2 * d.y ^ 2 := by positivity
  nlinarith [sq_nonneg a]

/-- what is recorded at the end, as a function of what is recorded at the start -/
inductive EndsAs (sx sy : ℝ) (n : Int) : ℝ → ℝ → Prop where
  /-- not reflected: the same -/
  | same : n = 0 → EndsAs sx sy n sx sy
  /-- reflected: the same without signs -/
  | unsigned : 0 < n → EndsAs sx sy n |sx| |sy|
  /-- reflected perpendicularly: nothing -/
  | gone : 0 < n → EndsAs sx sy n 0 0

/-- one photon of a simulation -/
theorem attempt_polarisation {lib : Xray ℝ} {S : Src ℝ} {D : Descr ℝ} (G : GoodSetup lib S D) {leak : Bool} {fuel k : Nat} {u : Nat → ℝ}
    (hu : ∀ i, 0 ≤ u i ∧ u i < 1) {n : Nat} {a : Attempt ℝ} {m : Nat} (h : attempt lib S D leak fuel k u n = .ok (a, m)) (hc : a.code = 1) :
    (|a.ph.startD.x| ≤ 1 / 2 → |a.ph.startD.y| ≤ 1 / 2 →
      ((startRec a).elecX = 1 ∧ (startRec a).elecY = 0) ∨ ((startRec a).elecX = 0 ∧ (startRec a).elecY = 1 ∧ S.hor_pol < 1)) ∧
    EndsAs (startRec a).elecX (startRec a).elecY a.ph.i_refl (exitRec D.prof a.ph).elecX (exitRec D.prof a.ph).elecY := by
  obtain ⟨x, hx, -, hl⟩ := attempt_ok h
  obtain ⟨ws, hw, -, -⟩ := attempt_weights G (fun i => ⟨(hu i).1, (hu i).2.le⟩) h hc
  obtain ⟨-, d0, dd, -⟩ := source_photon_geometry S G.src D u (fun i => ⟨(hu i).1, (hu i).2.le⟩) fuel n x m hx
  obtain ⟨e1, e2, p, q, p0, e3, e4⟩ := source_photon_polarisation S G.src D u (fun i => (hu i).1) fuel n x m hx
  obtain ⟨c, d, m', -, -, -, -, -, f1, -, -, f2, -⟩ := getPhoton_ok S D u fuel n x m hx
  obtain ⟨-, -, hes, hb, -⟩ := (scatf_accepts_iff D S.energies).mp G.comp
  rw [hw, hc] at hl
  have hdd : dot x.photon.startD x.photon.startD ≠ 0 := by rw [dd]; norm_num
  obtain ⟨-, s2, s3⟩ := launch_start lib D leak fuel k x.photon S.energies hes hb hdd _ _ _ hl
  rw [vnorm_unit _ dd] at s2
  have hE := (launch_electric_vector_partial lib D leak fuel k x.photon S.energies _ _ _ hes hb hl).1 rfl
  have hxE : x.photon.exitE = x.photon.startE := by rw [f1, f2]
  rw [hxE] at hE
  rw [← s2] at e2 e3 e4 dd
  rw [← s3] at e1 e2 e3 e4 hE
  have r1 := elecRound_ortho e2 a.ph.startE a.ph.startD
  have r2 := elecRound_ortho e2 a.ph.exitE a.ph.exitD
  rw [vnorm_unit _ e1] at r1 hE
  dsimp only [startRec, exitRec]
  rw [r1, r2]
  constructor
  · intro hx hy
    by_cases hp : u (m - 1) ≤ (1 + S.hor_pol) / 2
    · left
      obtain ⟨⟨a1, a2⟩, a3⟩ := components p0 dd e1 e2 (e3 hp) hx hy
      simp only [round_one a1 a2, round_zero a3]
      norm_num
    · right
      push Not at hp
      have hy' := e4 hp
      have := components (E := ⟨a.ph.startE.y, a.ph.startE.x, a.ph.startE.z⟩) (d := ⟨a.ph.startD.y, a.ph.startD.x, a.ph.startD.z⟩) p0
        (by unfold dot at *; simp only; linarith) (by unfold dot at *; simp only; linarith) (by unfold dot at *; simp only; linarith)
        (by rw [hy']) hy hx
      obtain ⟨⟨a1, a2⟩, a3⟩ := this
      simp only [round_one a1 a2, round_zero a3]
      refine ⟨by norm_num, by norm_num, ?_⟩
      have := (hu (m - 1)).2
      linarith
  · rcases hE with ⟨n0, hE⟩ | ⟨n0, hE | hE⟩
    · rw [hE, vnorm_unit _ e1]
      exact .same n0
    · have hu1 : dot (absV a.ph.startE) (absV a.ph.startE) = 1 := by rw [absV_dot, e1]
      rw [hE, vnorm_unit _ hu1]
      simp only [absV, round_abs]
      push_cast
      exact .unsigned n0
    · rw [hE, vnorm_zero (by simp [dot])]
      have : realRoundAway 0 = 0 := round_zero (by simp)
      simp only [this]
      push_cast
      exact .gone n0

/-- **C93** (partial).  In the result of a simulation over a valid setup, with any number of threads, every slot holds: as start polarisation `1 0` or `0 1` –
always `1 0` from a source with full horizontal polarisation – if the photon entered within 30° (in x and y) of the axis; and as exit
polarisation what was recorded at the start, without signs if there were reflections, or 0 0 after a perpendicular reflection (0/0 in C).  So the exit polarisation
recorded never depends on the reflections: see `exit_polarisation_is_start`. -/
theorem recorded_polarisation_partial (lib : Xray ℝ) (a : SimArgs ℝ) (omp : Int) (e : EArg) (r : TE ℝ) (e' : EArg) (h : SimOutcome lib a omp e (some r) e')
    {S : Src ℝ} {D : Descr ℝ} (hS : a.source = some (S, some D)) (G : GoodSetup lib S D) :
    ∀ j < a.nPhotons.toNat, ∃ st ex, r.start j = some st ∧ r.exit j = some ex ∧
      (|st.dirX| ≤ 1 / 2 → |st.dirY| ≤ 1 / 2 → (st.elecX = 1 ∧ st.elecY = 0) ∨ (st.elecX = 0 ∧ st.elecY = 1 ∧ S.hor_pol < 1)) ∧
      EndsAs st.elecX st.elecY ex.n_refl ex.elecX ex.elecY := by
  obtain ⟨S', D', u, fuel, k, H, hS', hu, R, -, hH⟩ := outcome_reports lib a omp e r e' h
  rw [hS] at hS'
  simp only [Option.some.injEq, Prod.mk.injEq] at hS'
  obtain ⟨rfl, rfl⟩ := hS'
  intro j hj
  obtain ⟨x, hx, hc, -, h1, h2, -⟩ := R.slot j hj
  obtain ⟨t, -, q, q', hatt⟩ := hH _ hx
  have hu' : ∀ i, 0 ≤ u t i ∧ u t i < 1 := by
    intro i
    have := hu t i
    simp only [real_le, real_lt, real_lit, decide_eq_true_eq] at this
    push_cast at this
    exact this
  have hcode : x.code = 1 := by
    by_contra hne
    unfold simCode at hc
    rw [if_neg hne] at hc
    exact hne hc
  obtain ⟨p1, p2⟩ := attempt_polarisation G hu' hatt hcode
  exact ⟨_, _, h1, h2, p1, p2⟩

/-- Finding: whatever happens to light on its way, a simulation reports it (unless it was reflected perpendicularly) with the polarisation it came with. -/
theorem exit_polarisation_is_start (lib : Xray ℝ) (a : SimArgs ℝ) (omp : Int) (e : EArg) (r : TE ℝ) (e' : EArg) (h : SimOutcome lib a omp e (some r) e')
    {S : Src ℝ} {D : Descr ℝ} (hS : a.source = some (S, some D)) (G : GoodSetup lib S D) {j : Nat} (hj : j < a.nPhotons.toNat) {st : StartRec ℝ} {ex : ExitRec ℝ}
    (hs : r.start j = some st) (he : r.exit j = some ex) (hx : |st.dirX| ≤ 1 / 2) (hy : |st.dirY| ≤ 1 / 2) (hex : ¬ (ex.elecX = 0 ∧ ex.elecY = 0)) :
    ex.elecX = st.elecX ∧ ex.elecY = st.elecY := by
  obtain ⟨st', ex', h1, h2, h3, h4⟩ := recorded_polarisation_partial lib a omp e r e' h hS G j hj
  rw [hs] at h1
  rw [he] at h2
  injection h1 with h1; injection h2 with h2
  subst h1 h2
  generalize hn : ex.n_refl = n at h4
  generalize hax : ex.elecX = X at *
  generalize hay : ex.elecY = Y at *
  cases h4 with
  | same => exact ⟨rfl, rfl⟩
  | unsigned =>
    rcases h3 hx hy with ⟨a, b⟩ | ⟨a, b, -⟩ <;> rw [a, b] <;> simp
  | gone => exact absurd ⟨rfl, rfl⟩ hex

/-- the setup of the example simulation meets the hypotheses -/
example : ∃ r, SimOutcome zLib zArgs 1 none (some r) none ∧ ∃ st ex, r.start 0 = some st ∧ r.exit 0 = some ex ∧ EndsAs st.elecX st.elecY ex.n_refl ex.elecX ex.elecY := by
  obtain ⟨r, h, -⟩ := z_simulation
  obtain ⟨st, ex, h1, h2, -, h4⟩ := recorded_polarisation_partial zLib zArgs 1 none r none h rfl z_setup 0 (by simp [zArgs])
  exact ⟨r, h, st, ex, h1, h2, h4⟩

/-- Finding: a steep photon's polarisation is recorded along no axis. -/
theorem steep_polarisation : let d : V3 ℝ := ⟨3/5, 48/65, 4/13⟩
    let E := srcElec ⟨1, 0, 0⟩ d
    dot d d = 1 ∧ elecRound E d E d = (1, -1) := by
  have hd : dot (⟨3/5, 48/65, 4/13⟩ : V3 ℝ) ⟨3/5, 48/65, 4/13⟩ = 1 := by unfold dot; norm_num
  have hs : Real.sqrt (1 - (3/5) ^ 2) = 4/5 := by
    rw [show (1 - (3/5) ^ 2 : ℝ) = (4/5) ^ 2 by norm_num, Real.sqrt_sq (by norm_num)]
  have hc : scalar (⟨1, 0, 0⟩ : V3 ℝ) ⟨3/5, 48/65, 4/13⟩ = 3/5 := by rw [scalar_real]; unfold dot; norm_num
  have hu : dot (⟨4/5, -36/65, -3/13⟩ : V3 ℝ) ⟨4/5, -36/65, -3/13⟩ = 1 := by unfold dot; norm_num
  have hE : srcElec (⟨1, 0, 0⟩ : V3 ℝ) ⟨3/5, 48/65, 4/13⟩ = ⟨4/5, -36/65, -3/13⟩ := by
    simp only [srcElec, hc, real_acos, real_sin, Real.sin_arccos, hs, real_div, real_mul, real_add, real_lit]
    norm_num
    exact vnorm_unit _ (by unfold dot; norm_num)
  refine ⟨hd, ?_⟩
  rw [hE, elecRound_ortho (by unfold dot; norm_num), vnorm_unit _ hu]
  have h1 : realRoundAway (4/5) = 1 := round_one (by norm_num) (by norm_num)
  have h2 : realRoundAway (-36/65) = -1 := by
    unfold realRoundAway
    rw [if_neg (by norm_num), neg_inj, Int.floor_eq_iff]
    push_cast
    constructor <;> norm_num
  simp only [h1, h2]
  norm_num

end PolarImage
end Polycap
