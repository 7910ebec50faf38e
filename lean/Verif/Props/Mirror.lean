import Verif.Props.Straight
import Verif.Props.LeakUb

/-!
# C94: mirror images fare alike

A monocapillary is its own mirror image in every plane through its axis, the hexagon with which the code compares positions in the planes x = 0 and y = 0.  So the
mirror image of a photon must have the mirror image of its fate.  This holds if the light is polarised along an axis; not in general.
-/
namespace Polycap
open CNum
namespace Mirror
open EInd Polar

/-- mirror image in the planes x = 0 (`σ = -1`) and y = 0 (`τ = -1`) -/
def flip (σ τ : ℝ) (v : V3 ℝ) : V3 ℝ := ⟨σ * v.x, τ * v.y, v.z⟩

/-- `1` or `-1` -/
def Sign (s : ℝ) : Prop := s = 1 ∨ s = -1

variable {σ τ : ℝ}

theorem Sign.sq {s : ℝ} (h : Sign s) : s * s = 1 := by rcases h with rfl | rfl <;> norm_num

theorem prod_flip {s : ℝ} (h : Sign s) (a b : ℝ) : s * a * (s * b) = a * b := by
  linear_combination a * b * h.sq

theorem vnorm_flip (hσ : Sign σ) (hτ : Sign τ) (v : V3 ℝ) : vnorm (flip σ τ v) = flip σ τ (vnorm v) := by
  simp only [vnorm, flip, real_mul, real_add, real_sqrt, real_div, prod_flip hσ, prod_flip hτ, mul_div_assoc]

theorem scalar_flip (hσ : Sign σ) (hτ : Sign τ) (a b : V3 ℝ) : scalar (flip σ τ a) (flip σ τ b) = scalar a b := by
  simp only [scalar, flip, real_mul, real_add, prod_flip hσ, prod_flip hτ]

theorem vsub_flip (a b : V3 ℝ) : vsub (flip σ τ a) (flip σ τ b) = flip σ τ (vsub a b) := by
  simp only [vsub, flip, real_sub, mul_sub]

theorem dist3_flip (hσ : Sign σ) (hτ : Sign τ) (a b : V3 ℝ) : dist3 (flip σ τ a) (flip σ τ b) = dist3 a b := by
  simp only [dist3, vsub_flip, scalar_flip hσ hτ]

theorem atGrid_flip (p : Profile ℝ) (c d : V3 ℝ) (i : Nat) : atGrid p (flip σ τ c) (flip σ τ d) i = flip σ τ (atGrid p c d i) := by
  simp only [atGrid, projXY, flip, real_mul, real_add, real_sub, real_div, V3.mk.injEq, and_true]
  constructor <;> ring

theorem axis_flip (z : ℝ) : flip σ τ ⟨0, 0, z⟩ = ⟨0, 0, z⟩ := by simp [flip]

theorem inHex_flip (hσ : Sign σ) (hτ : Sign τ) (R x y : ℝ) : InHex R (σ * x) (τ * y) ↔ InHex R x y := by
  unfold InHex
  dsimp only
  have e1 : ∀ a b : ℝ, |a * -x + b| = |a * x - b| := by intro a b; rw [← abs_neg]; congr 1; ring
  have e2 : ∀ a b : ℝ, |a * -x - b| = |a * x + b| := by intro a b; rw [← abs_neg]; congr 1; ring
  rcases hσ with rfl | rfl <;> rcases hτ with rfl | rfl <;> simp only [one_mul, neg_mul, neg_div, ← sub_eq_add_neg, sub_neg_eq_add, e1, e2, abs_neg] <;> tauto

theorem within_flip (hσ : Sign σ) (hτ : Sign τ) (R x y : ℝ) : withinPcBoundary R (σ * x) (τ * y) = withinPcBoundary R x y := by
  obtain ⟨a1, a2, a3⟩ := boundary_spec R x y
  obtain ⟨b1, b2, b3⟩ := boundary_spec R (σ * x) (τ * y)
  rcases le_or_gt R 0 with h | h
  · rw [a1 h, b1 h]
  · by_cases hi : InHex R x y
    · rw [a2 h hi, b2 h ((inHex_flip hσ hτ R x y).mpr hi)]
    · rw [a3 h hi, b3 h (fun h' => hi ((inHex_flip hσ hτ R x y).mp h'))]

/-- one segment of a capillary on the axis -/
theorem segment_flip (hσ : Sign σ) (hτ : Sign τ) (z0 z1 r0 r1 : ℝ) (p0 p1 d cur nrm : V3 ℝ) :
    segment ⟨0, 0, z0⟩ ⟨0, 0, z1⟩ r0 r1 (flip σ τ p0) (flip σ τ p1) (flip σ τ d) (flip σ τ cur) (flip σ τ nrm) =
      ((segment ⟨0, 0, z0⟩ ⟨0, 0, z1⟩ r0 r1 p0 p1 d cur nrm).1, flip σ τ (segment ⟨0, 0, z0⟩ ⟨0, 0, z1⟩ r0 r1 p0 p1 d cur nrm).2.1,
        flip σ τ (segment ⟨0, 0, z0⟩ ⟨0, 0, z1⟩ r0 r1 p0 p1 d cur nrm).2.2) := by
  have e0 : (lit 0 : ℝ) = 0 := by simp
  have hrej : segRejects (⟨0, 0, z0⟩ : V3 ℝ) ⟨0, 0, z1⟩ r0 r1 (flip σ τ p0) (flip σ τ p1) (flip σ τ d) = segRejects ⟨0, 0, z0⟩ ⟨0, 0, z1⟩ r0 r1 p0 p1 d := rfl
  have hcd : vsub (⟨0, 0, z1⟩ : V3 ℝ) ⟨0, 0, z0⟩ = ⟨0, 0, z1 - z0⟩ := by simp [vsub]
  unfold segment
  simp only [hrej, vnorm_flip hσ hτ, hcd, e0]
  generalize vnorm d = u
  have hA : segA (⟨0, 0, z0⟩ : V3 ℝ) ⟨0, 0, z1⟩ r0 r1 (flip σ τ u) ⟨0, 0, z1 - z0⟩ = segA ⟨0, 0, z0⟩ ⟨0, 0, z1⟩ r0 r1 u ⟨0, 0, z1 - z0⟩ := by
    simp only [segA, segSlopes, flip, real_mul, real_add, real_sub, real_div, zero_div, sub_zero, mul_div_assoc, prod_flip hσ, prod_flip hτ]
  have hB : segB (⟨0, 0, z0⟩ : V3 ℝ) ⟨0, 0, z1⟩ r0 r1 (flip σ τ p0) (flip σ τ u) ⟨0, 0, z1 - z0⟩ = segB ⟨0, 0, z0⟩ ⟨0, 0, z1⟩ r0 r1 p0 u ⟨0, 0, z1 - z0⟩ := by
    simp only [segB, segSlopes, flip, real_mul, real_add, real_sub, real_div, real_lit, zero_div, sub_zero, mul_div_assoc]
    linear_combination 2 * (p0.x * (u.x / u.z)) * hσ.sq + 2 * (p0.y * (u.y / u.z)) * hτ.sq
  have hC : segC (⟨0, 0, z0⟩ : V3 ℝ) r0 (flip σ τ p0) = segC ⟨0, 0, z0⟩ r0 p0 := by
    simp only [segC, flip, real_mul, real_add, real_sub, sub_zero, prod_flip hσ, prod_flip hτ]
  rw [hA, hB, hC]
  have z_p : (flip σ τ p0).z = p0.z := rfl
  have z_c : (flip σ τ cur).z = cur.z := rfl
  have z_u : (flip σ τ u).z = u.z := rfl
  simp only [z_p, z_c, z_u]
  have hz : flip σ τ ⟨0, 0, 0⟩ = ⟨0, 0, 0⟩ := axis_flip 0
  split_ifs
  · rfl
  · cases segSolve (segA (⟨0, 0, z0⟩ : V3 ℝ) ⟨0, 0, z1⟩ r0 r1 u ⟨0, 0, z1 - z0⟩) (segB ⟨0, 0, z0⟩ ⟨0, 0, z1⟩ r0 r1 p0 u ⟨0, 0, z1 - z0⟩) (segC ⟨0, 0, z0⟩ r0 p0) p0.z z0 z1 cur.z with
    | inl code => simp only [hz]
    | inr z =>
      dsimp only
      have hv : (⟨(flip σ τ p0).x +. (z -. p0.z) /. u.z *. (flip σ τ u).x, (flip σ τ p0).y +. (z -. p0.z) /. u.z *. (flip σ τ u).y, z⟩ : V3 ℝ) =
          flip σ τ ⟨p0.x +. (z -. p0.z) /. u.z *. u.x, p0.y +. (z -. p0.z) /. u.z *. u.y, z⟩ := by
        simp only [flip, real_mul, real_add, real_sub, real_div, V3.mk.injEq, and_true]
        constructor <;> ring
      rw [hv]
      split_ifs
      · simp only [hz]
      · simp only [hz]
      · simp only [hz]
      · refine Prod.ext rfl (Prod.ext rfl ?_)
        generalize (⟨p0.x +. (z -. p0.z) /. u.z *. u.x, p0.y +. (z -. p0.z) /. u.z *. u.y, z⟩ : V3 ℝ) = v
        simp only
        have hcf : (⟨0, 0, z1 - z0⟩ : V3 ℝ) = flip σ τ ⟨0, 0, z1 - z0⟩ := (axis_flip _).symm
        have h0f : (⟨0, 0, z0⟩ : V3 ℝ) = flip σ τ ⟨0, 0, z0⟩ := (axis_flip _).symm
        have hs1 : scalar (flip σ τ u) (⟨0, 0, z1 - z0⟩ : V3 ℝ) = scalar u ⟨0, 0, z1 - z0⟩ := by rw [hcf, scalar_flip hσ hτ]; rw [← hcf]
        have hs2 : scalar (vsub (flip σ τ p0) ⟨0, 0, z0⟩) (⟨0, 0, z1 - z0⟩ : V3 ℝ) = scalar (vsub p0 ⟨0, 0, z0⟩) ⟨0, 0, z1 - z0⟩ := by
          rw [h0f, vsub_flip, hcf, scalar_flip hσ hτ]; rw [← hcf, ← h0f]
        unfold segNormal
        simp only [hs1, hs2]
        have hfoot : ∀ f : ℝ, (⟨(0:ℝ) +. f *. (0:ℝ), (0:ℝ) +. f *. (0:ℝ), z0 +. f *. (z1 - z0)⟩ : V3 ℝ) = flip σ τ ⟨(0:ℝ) +. f *. (0:ℝ), (0:ℝ) +. f *. (0:ℝ), z0 +. f *. (z1 - z0)⟩ := by
          intro f; simp [flip]
        rw [hfoot, vsub_flip, scalar_flip hσ hτ, ← vnorm_flip hσ hτ]
        congr 1
        simp only [flip, real_mul, real_add, real_div, mul_zero, zero_div, add_zero, V3.mk.injEq, and_true]
        constructor <;> ring

/-! ## The search for the wall -/

/-- along an axis: two components vanish -/
def Axial (E : V3 ℝ) : Prop := (E.y = 0 ∧ E.z = 0) ∨ (E.x = 0 ∧ E.z = 0) ∨ (E.x = 0 ∧ E.y = 0)

/-- the same axial vector, or the opposite one -/
structure Alike (E F : V3 ℝ) : Prop where
  axial : Axial E
  same : F = E ∨ F = ⟨-E.x, -E.y, -E.z⟩

/-- `Q` is the mirror image of `P` -/
structure Image (σ τ : ℝ) (P Q : Photon ℝ) : Prop where
  startC : Q.startC = flip σ τ P.startC
  startD : Q.startD = flip σ τ P.startD
  exitC : Q.exitC = flip σ τ P.exitC
  exitD : Q.exitD = flip σ τ P.exitD
  exitE : Alike P.exitE Q.exitE
  i_refl : Q.i_refl = P.i_refl
  d_travel : Q.d_travel = P.d_travel
  chans : Q.chans = P.chans
  coef : Q.coef = P.coef

/-- what the search finds, mirrored -/
def flipHit (σ τ : ℝ) : Hit ℝ → Hit ℝ
  | .ret c => .ret c
  | .hit i v n a => .hit i (flip σ τ v) (flip σ τ n) a
  | .miss => .miss

theorem search_flip (hσ : Sign σ) (hτ : Sign τ) {D : Descr ℝ} (hns : nShells (α := ℝ) D.n_cap = 0) {capx capy : Nat → ℝ} (hx : ∀ i, capx i = 0) (hy : ∀ i, capy i = 0)
    {P Q : Photon ℝ} (hc : Q.exitC = flip σ τ P.exitC) (hd : Q.exitD = flip σ τ P.exitD) :
    ∀ (k i : Nat) (cur nrm : V3 ℝ), traceSearch D capx capy Q k i (flip σ τ cur) (flip σ τ nrm) = flipHit σ τ (traceSearch D capx capy P k i cur nrm) := by
  intro k
  induction k with
  | zero => intro i cur nrm; rfl
  | succ k ih =>
    intro i cur nrm
    unfold traceSearch
    simp only [hx, hy, hc, hd, atGrid_flip, segment_flip hσ hτ, scalar_flip hσ hτ, hns, if_true]
    generalize segment (⟨0, 0, D.prof.z i⟩ : V3 ℝ) ⟨0, 0, D.prof.z (i + 1)⟩ (D.prof.cap i) (D.prof.cap (i + 1)) (atGrid D.prof P.exitC P.exitD i)
      (atGrid D.prof P.exitC P.exitD (i + 1)) P.exitD cur nrm = s
    have hrad : ∀ v : V3 ℝ, sqrt ((flip σ τ v).x *. (flip σ τ v).x +. (flip σ τ v).y *. (flip σ τ v).y) = sqrt (v.x *. v.x +. v.y *. v.y) := by
      intro v; simp only [flip, real_mul, real_add, prod_flip hσ, prod_flip hτ]
    have hz : ∀ v : V3 ℝ, (flip σ τ v).z = v.z := fun _ => rfl
    have hw : ∀ (R : ℝ) (v : V3 ℝ), withinPcBoundary R (flip σ τ v).x (flip σ τ v).y = withinPcBoundary R v.x v.y := fun R v => within_flip hσ hτ R v.x v.y
    simp only [hrad, hz, hw, ih]
    split_ifs <;> rfl

/-! ## Reflection -/

theorem alike_norm {E F : V3 ℝ} (h : Alike E F) : Alike (normIfNot1 E) (normIfNot1 F) := by
  have hd : dot F F = dot E E := by
    rcases h.same with rfl | rfl
    · rfl
    · unfold dot; ring
  have hv : ∀ v : V3 ℝ, vnorm ⟨-v.x, -v.y, -v.z⟩ = ⟨-(vnorm v).x, -(vnorm v).y, -(vnorm v).z⟩ := by
    intro v; simp only [vnorm, real_mul, real_add, real_sqrt, real_div, neg_mul_neg, neg_div]
  have ha : Axial (vnorm E) := by
    have := h.axial
    unfold Axial at this ⊢
    simp only [vnorm, real_div]
    rcases this with ⟨a, b⟩ | ⟨a, b⟩ | ⟨a, b⟩ <;> simp [a, b]
  rw [normIfNot1_eq, normIfNot1_eq, hd]
  split_ifs
  · exact h
  · refine ⟨ha, ?_⟩
    rcases h.same with rfl | rfl
    · exact Or.inl rfl
    · exact Or.inr (hv E)

theorem normIfNot1_flip (hσ : Sign σ) (hτ : Sign τ) (v : V3 ℝ) : normIfNot1 (flip σ τ v) = flip σ τ (normIfNot1 v) := by
  have hd : dot (flip σ τ v) (flip σ τ v) = dot v v := by
    have := scalar_flip hσ hτ v v
    rwa [scalar_real, scalar_real] at this
  rw [normIfNot1_eq, normIfNot1_eq, hd, vnorm_flip hσ hτ]
  split_ifs <;> rfl

/-- the scalar product of an axial vector with a mirror image -/
theorem alike_dot (hσ : Sign σ) (hτ : Sign τ) {E F : V3 ℝ} (h : Alike E F) {s : ℝ} (hs : Sign s) (v : V3 ℝ) :
    (dot F ⟨s * (flip σ τ v).x, s * (flip σ τ v).y, s * (flip σ τ v).z⟩) ^ 2 = (dot E v) ^ 2 := by
  have hss := hs.sq
  have h1 := hσ.sq
  have h2 := hτ.sq
  rcases h.axial with ⟨a, b⟩ | ⟨a, b⟩ | ⟨a, b⟩ <;> rcases h.same with rfl | rfl <;> simp only [dot, flip, a, b] <;> ring_nf <;>
    simp only [show s ^ 2 = 1 by rw [← hss]; ring, show σ ^ 2 = 1 by rw [← h1]; ring, show τ ^ 2 = 1 by rw [← h2]; ring, mul_one, one_mul]

theorem cross_flip (a b : V3 ℝ) (hσ : Sign σ) (hτ : Sign τ) :
    cross (flip σ τ a) (flip σ τ b) = ⟨σ * τ * (flip σ τ (cross a b)).x, σ * τ * (flip σ τ (cross a b)).y, σ * τ * (flip σ τ (cross a b)).z⟩ := by
  simp only [cross, flip, real_mul, real_sub, V3.mk.injEq]
  refine ⟨?_, ?_, ?_⟩
  · linear_combination (-τ * (a.y * b.z - b.y * a.z)) * hσ.sq
  · linear_combination (-σ * (a.z * b.x - b.z * a.x)) * hτ.sq
  · ring

theorem vnorm_sign {s : ℝ} (hs : Sign s) (v : V3 ℝ) : vnorm ⟨s * v.x, s * v.y, s * v.z⟩ = ⟨s * (vnorm v).x, s * (vnorm v).y, s * (vnorm v).z⟩ := by
  simp only [vnorm, real_mul, real_add, real_sqrt, real_div, prod_flip hs, mul_div_assoc]

theorem Sign.mul {s t : ℝ} (hs : Sign s) (ht : Sign t) : Sign (s * t) := by
  unfold Sign at *
  rcases hs with rfl | rfl <;> rcases ht with rfl | rfl <;> norm_num

theorem factor_sq {a a' fs b b' fp g g' : ℝ} (ha : a' ^ 2 = a ^ 2) (hb : b' ^ 2 = b ^ 2) (hg : g' ^ 2 = g ^ 2) : factor a' fs b' fp g' = factor a fs b fp g := by
  unfold factor
  congr 1
  linear_combination fs ^ 2 * ha + fp ^ 2 * hb + fp ^ 2 * hg

/-- the reflectivity and the new electric vector -/
theorem polar_flip (hσ : Sign σ) (hτ : Sign τ) (e density scatf mu : ℝ) (norm dir : V3 ℝ) {E F ev ev' : V3 ℝ} (hE : Alike E F) (hev : Alike ev ev') :
    let x := reflPolar e density scatf mu norm dir E ev
    let y := reflPolar e density scatf mu (flip σ τ norm) (flip σ τ dir) F ev'
    y.1 = x.1 ∧ Alike x.2.1 y.2.1 ∧ Alike x.2.2 y.2.2 := by
  dsimp only
  unfold reflPolar
  simp only [normIfNot1_flip hσ hτ, scalar_flip hσ hτ]
  split_ifs
  · exact ⟨rfl, hev, hE⟩
  · exact ⟨rfl, hev, hE⟩
  · have hE' := alike_norm hE
    generalize normIfNot1 E = E at hE' ⊢
    generalize normIfNot1 F = F at hE' ⊢
    generalize normIfNot1 norm = n
    have hst := hσ.mul hτ
    have hs : vnorm (cross (flip σ τ n) (flip σ τ dir)) = ⟨σ * τ * (flip σ τ (vnorm (cross n dir))).x, σ * τ * (flip σ τ (vnorm (cross n dir))).y, σ * τ * (flip σ τ (vnorm (cross n dir))).z⟩ := by
      rw [cross_flip n dir hσ hτ, vnorm_sign hst, vnorm_flip hσ hτ]
    rw [hs]
    generalize vnorm (cross n dir) = s
    have hp : vnorm (cross (flip σ τ dir) ⟨σ * τ * (flip σ τ s).x, σ * τ * (flip σ τ s).y, σ * τ * (flip σ τ s).z⟩) = flip σ τ (vnorm (cross dir s)) := by
      rw [← vnorm_flip hσ hτ]
      congr 1
      simp only [cross, flip, real_mul, real_sub, V3.mk.injEq]
      refine ⟨?_, ?_, ?_⟩
      · linear_combination σ * (dir.y * s.z - s.y * dir.z) * hτ.sq
      · linear_combination τ * (dir.z * s.x - s.z * dir.x) * hσ.sq
      · linear_combination (dir.x * s.y - s.x * dir.y) * (τ * τ * hσ.sq + hτ.sq)
    rw [hp]
    generalize vnorm (cross dir s) = p
    simp only [scalar_real]
    have ha : (dot F ⟨σ * τ * (flip σ τ s).x, σ * τ * (flip σ τ s).y, σ * τ * (flip σ τ s).z⟩) ^ 2 = dot E s ^ 2 := alike_dot hσ hτ hE' hst s
    have one : ∀ v : V3 ℝ, (⟨1 * v.x, 1 * v.y, 1 * v.z⟩ : V3 ℝ) = v := by intro v; simp
    have hb : (dot F (flip σ τ n)) ^ 2 = dot E n ^ 2 := by
      have := alike_dot hσ hτ hE' (Or.inl rfl : Sign 1) n
      rwa [one] at this
    have hg : (dot F (flip σ τ p)) ^ 2 = dot E p ^ 2 := by
      have := alike_dot hσ hτ hE' (Or.inl rfl : Sign 1) p
      rwa [one] at this
    have ha' : dot F ⟨σ * τ * (flip σ τ s).x, σ * τ * (flip σ τ s).y, σ * τ * (flip σ τ s).z⟩ *. dot F ⟨σ * τ * (flip σ τ s).x, σ * τ * (flip σ τ s).y, σ * τ * (flip σ τ s).z⟩ =
        dot E s *. dot E s := by simp only [real_mul]; linear_combination ha
    rw [ha']
    simp only [newE_eq]
    rw [factor_sq ha hb hg]
    have hab : |F.x| = |E.x| ∧ |F.y| = |E.y| ∧ |F.z| = |E.z| := by
      rcases hE'.same with rfl | rfl <;> simp
    rw [hab.1, hab.2.1, hab.2.2]
    refine ⟨trivial, ⟨?_, Or.inl rfl⟩, hE'⟩
    unfold Axial vnorm
    simp only [real_div]
    rcases hE'.axial with ⟨a, b⟩ | ⟨a, b⟩ | ⟨a, b⟩ <;> simp [a, b]

theorem energies_flip (hσ : Sign σ) (hτ : Sign τ) (D : Descr ℝ) (n d : V3 ℝ) (alfa : ℝ) (leak : Bool) (t : ℝ) :
    ∀ (cs : List (Chan ℝ)) {E F ev ev' : V3 ℝ}, Alike E F → Alike ev ev' →
      let x := reflEnergies D n d alfa leak t cs E ev
      let y := reflEnergies D (flip σ τ n) (flip σ τ d) alfa leak t cs F ev'
      y.chans = x.chans ∧ y.wl = x.wl ∧ Alike x.E y.E ∧ Alike x.ev y.ev ∧ y.leakFlag = x.leakFlag ∧ y.weightFlag = x.weightFlag ∧ y.ok = x.ok := by
  intro cs
  induction cs with
  | nil => intro E F ev ev' h h'; exact ⟨rfl, rfl, h, h', rfl, rfl, rfl⟩
  | cons c cs ih =>
    intro E F ev ev' h h'
    obtain ⟨p1, p2, p3⟩ := polar_flip hσ hτ c.e D.density c.scatf c.amu n d h h'
    dsimp only
    unfold reflEnergies
    simp only [p1]
    split_ifs
    · exact ⟨rfl, rfl, p3, p2, rfl, rfl, rfl⟩
    · obtain ⟨a, b, c1, d1, e, f, g⟩ := ih p3 p2
      simp only [a, b, e, f, g]
      exact ⟨trivial, trivial, c1, d1, trivial, trivial, trivial⟩

/-- the same outcome, with mirrored photons -/
inductive Same (σ τ : ℝ) {A : Type} : Out (A × Photon ℝ) → Out (A × Photon ℝ) → Prop where
  | ok (a : A) {P Q : Photon ℝ} : Image σ τ P Q → Same σ τ (.ok (a, P)) (.ok (a, Q))
  | ub : Same σ τ .ub .ub
  | fuel : Same σ τ .fuel .fuel

/-- the same outcome of a tracing call -/
inductive Same3 (σ τ : ℝ) : Out (Int × Nat × Photon ℝ) → Out (Int × Nat × Photon ℝ) → Prop where
  | ok (c : Int) (i : Nat) {P Q : Photon ℝ} : Image σ τ P Q → Same3 σ τ (.ok (c, i, P)) (.ok (c, i, Q))
  | ub : Same3 σ τ .ub .ub
  | fuel : Same3 σ τ .fuel .fuel

theorem reflect_flip (hσ : Sign σ) (hτ : Sign τ) (D : Descr ℝ) (fuel k : Nat) (n : V3 ℝ) {P Q : Photon ℝ} (h : Image σ τ P Q) :
    Same σ τ (reflect D false fuel k n P) (reflect D false fuel k (flip σ τ n) Q) := by
  cases k with
  | zero => exact .fuel
  | succ k =>
    unfold reflect reflectBody
    simp only [h.exitD, vnorm_flip hσ hτ, scalar_flip hσ hτ, wallOf, renorm, Bool.false_eq_true, if_false, Out.bind_ok]
    split_ifs
    · exact .ok _ ⟨h.startC, h.startD, h.exitC, rfl, h.exitE, h.i_refl, h.d_travel, h.chans, h.coef⟩
    · unfold reflectRest
      obtain ⟨a, b, c1, d1, e, f, g⟩ := energies_flip hσ hτ D (vnorm n) (vnorm P.exitD) (scalar (vnorm P.exitD) (vnorm n)) false (lit 0) P.chans h.exitE h.exitE
      have hl := reflEnergies_leakFlag_off D (vnorm n) (vnorm P.exitD) (scalar (vnorm P.exitD) (vnorm n)) (lit 0) P.chans P.exitE P.exitE
      simp only [Bool.false_eq_true, false_and, if_false, h.coef, h.chans, a, b, e, f, g, hl]
      split_ifs
      · exact .ub
      · exact .ok _ ⟨h.startC, h.startD, h.exitC, rfl, c1, h.i_refl, h.d_travel, rfl, rfl⟩
      · exact .ok _ ⟨h.startC, h.startD, h.exitC, rfl, d1, h.i_refl, h.d_travel, rfl, rfl⟩
      · exact .ok _ ⟨h.startC, h.startD, h.exitC, rfl, d1, h.i_refl, h.d_travel, rfl, rfl⟩

theorem reflectDir_flip (hσ : Sign σ) (hτ : Sign τ) (d n : V3 ℝ) (a : ℝ) : reflectDir (flip σ τ d) (flip σ τ n) a = flip σ τ (reflectDir d n a) := by
  unfold reflectDir
  rw [← vnorm_flip hσ hτ]
  congr 1
  simp only [flip, real_mul, real_sub, V3.mk.injEq, and_true]
  constructor <;> ring

/-- The tracing function. -/
theorem trace_flip (hσ : Sign σ) (hτ : Sign τ) {D : Descr ℝ} (hns : nShells (α := ℝ) D.n_cap = 0) {capx capy : Nat → ℝ} (hx : ∀ i, capx i = 0) (hy : ∀ i, capy i = 0)
    (fuel k ix : Nat) {P Q : Photon ℝ} (h : Image σ τ P Q) :
    Same3 σ τ (trace D false fuel k capx capy ix P) (trace D false fuel k capx capy ix Q) := by
  have h0 : Image σ τ { P with exitD := vnorm P.exitD, startD := vnorm P.startD } { Q with exitD := vnorm Q.exitD, startD := vnorm Q.startD } :=
    ⟨h.startC, by simp only [h.startD, vnorm_flip hσ hτ], h.exitC, by simp only [h.exitD, vnorm_flip hσ hτ], h.exitE, h.i_refl, h.d_travel, h.chans, h.coef⟩
  have e0 : (lit 0 : ℝ) = 0 := by simp
  have hs := search_flip hσ hτ hns hx hy h0.exitC h0.exitD (D.prof.nmax - ix) ix P.exitC ⟨0, 0, 0⟩
  rw [axis_flip, ← h.exitC] at hs
  unfold trace capilTrace
  simp only [e0] at hs ⊢
  generalize ({ P with exitD := vnorm P.exitD, startD := vnorm P.startD } : Photon ℝ) = P0 at h0 hs ⊢
  generalize ({ Q with exitD := vnorm Q.exitD, startD := vnorm Q.startD } : Photon ℝ) = Q0 at h0 hs ⊢
  rw [hs]
  cases traceSearch D capx capy P0 (D.prof.nmax - ix) ix P.exitC ⟨0, 0, 0⟩ with
  | ret c => exact .ok _ _ h0
  | miss => exact .ok _ _ h0
  | hit i v n a =>
    simp only [flipHit]
    have h1 : Image σ τ { P0 with d_travel := P0.d_travel +. dist3 v P0.exitC, exitC := v } { Q0 with d_travel := Q0.d_travel +. dist3 (flip σ τ v) Q0.exitC, exitC := flip σ τ v } :=
      ⟨h0.startC, h0.startD, rfl, h0.exitD, h0.exitE, h0.i_refl, by simp only [h0.d_travel, h0.exitC, dist3_flip hσ hτ], h0.chans, h0.coef⟩
    unfold traceHit
    have hrad : (flip σ τ v).x *. (flip σ τ v).x +. (flip σ τ v).y *. (flip σ τ v).y = v.x *. v.x +. v.y *. v.y := by
      simp only [flip, real_mul, real_add, prod_flip hσ, prod_flip hτ]
    have hz : (flip σ τ v).z = v.z := rfl
    simp only [hrad, hz, hns, lt_irrefl, false_and, if_false, true_and]
    generalize ({ P0 with d_travel := P0.d_travel +. dist3 v P0.exitC, exitC := v } : Photon ℝ) = P1 at h1 ⊢
    generalize ({ Q0 with d_travel := Q0.d_travel +. dist3 (flip σ τ v) Q0.exitC, exitC := flip σ τ v } : Photon ℝ) = Q1 at h1 ⊢
    split_ifs
    · exact .ok _ _ h1
    · exact .ub
    · exact .ok _ _ h1
    · have hr := reflect_flip hσ hτ D fuel k n h1
      generalize reflect D false fuel k n P1 = x at hr
      generalize reflect D false fuel k (flip σ τ n) Q1 = y at hr
      cases hr with
      | ub => exact .ub
      | fuel => exact .fuel
      | @ok c P' Q' hi =>
        simp only [Out.bind_ok, afterReflect]
        split_ifs
        · exact .ok _ _ ⟨hi.startC, hi.startD, hi.exitC, by simp only [hi.exitD, reflectDir_flip hσ hτ], hi.exitE, by simp only [hi.i_refl], hi.d_travel, hi.chans, hi.coef⟩
        · exact .ok _ _ hi
        · exact .ok _ _ hi

theorem loop_flip (hσ : Sign σ) (hτ : Sign τ) {D : Descr ℝ} (hns : nShells (α := ℝ) D.n_cap = 0) {capx capy : Nat → ℝ} (hx : ∀ i, capx i = 0) (hy : ∀ i, capy i = 0)
    (fuel k : Nat) : ∀ (M : Nat) (c : Int) (ix : Nat) {P Q : Photon ℝ}, Image σ τ P Q →
    Same3 σ τ (traceLoop (trace D false fuel k capx capy) M c ix P) (traceLoop (trace D false fuel k capx capy) M c ix Q) := by
  intro M
  induction M with
  | zero => intro c ix P Q h; exact .ok _ _ h
  | succ M ih =>
    intro c ix P Q h
    unfold traceLoop
    have ht := trace_flip hσ hτ hns hx hy fuel k ix h
    generalize trace D false fuel k capx capy ix P = x at ht
    generalize trace D false fuel k capx capy ix Q = y at ht
    cases ht with
    | ub => exact .ub
    | fuel => exact .fuel
    | @ok c i P' Q' hi =>
      simp only [Out.bind_ok]
      split_ifs
      · exact .ok _ _ hi
      · exact ih _ _ hi

/-- the mirror image of a photon, its electric vector included -/
def mirrored (σ τ : ℝ) (P : Photon ℝ) : Photon ℝ :=
  { P with startC := flip σ τ P.startC, startD := flip σ τ P.startD, startE := flip σ τ P.startE,
           exitC := flip σ τ P.exitC, exitD := flip σ τ P.exitD, exitE := flip σ τ P.exitE }

theorem axial_flip (hσ : Sign σ) (hτ : Sign τ) {E : V3 ℝ} (h : Axial E) : Alike E (flip σ τ E) := by
  refine ⟨h, ?_⟩
  unfold Axial at h
  obtain ⟨x, y, z⟩ := E
  simp only at h
  rcases h with ⟨rfl, rfl⟩ | ⟨rfl, rfl⟩ | ⟨rfl, rfl⟩ <;> rcases hσ with rfl | rfl <;> rcases hτ with rfl | rfl <;> simp [flip]

/-- **C94** (partial).  Launching the mirror image of a photon polarised along an axis in a monocapillary (without leak calculation): same return value, same weights (or the same
failure to provide them), the same number of reflections and length of the way; the photon ends in the mirror image of where, and flying in the mirror image of the direction in
which, the photon itself ends; the electric vectors agree up to the sign. -/
theorem launch_mirror_partial (lib : Xray ℝ) (D : Descr ℝ) (h1 : 1 ≤ D.n_cap) (h3 : D.n_cap ≤ 3) (fuel k : Nat) (P : Photon ℝ) (es : List ℝ) {σ τ : ℝ} (hσ : Sign σ) (hτ : Sign τ)
    (hE : Axial P.exitE) (c : Int) (w : WOut ℝ) (P' : Photon ℝ)
    (h : launch lib (some D) false fuel k (some P) (some es) true = .ok (c, w, some P')) :
    ∃ Q', launch lib (some D) false fuel k (some (mirrored σ τ P)) (some es) true = .ok (c, w, some Q') ∧
      Q'.startC = flip σ τ P'.startC ∧ Q'.startD = flip σ τ P'.startD ∧ Q'.exitC = flip σ τ P'.exitC ∧ Q'.exitD = flip σ τ P'.exitD ∧
      (Q'.exitE = P'.exitE ∨ Q'.exitE = ⟨-P'.exitE.x, -P'.exitE.y, -P'.exitE.z⟩) ∧ Q'.i_refl = P'.i_refl ∧ Q'.d_travel = P'.d_travel := by
  have hns : nShells (α := ℝ) D.n_cap = 0 := (nShells_zero_iff D.n_cap h1).mpr h3
  have hax : ∀ i, axX D (0, 0) i = 0 := by intro i; rw [axX_eq D h1]; simp [centreX]
  have hay : ∀ i, axY D (0, 0) i = 0 := by intro i; rw [axY_eq D h1]; simp [centreY]
  have fin : ∀ {c : Int} {w : WOut ℝ} {P' Q' : Photon ℝ}, Image σ τ P' Q' → ∃ Q'' : Photon ℝ, (Out.ok (c, w, some Q') : Out (Int × WOut ℝ × Option (Photon ℝ))) = .ok (c, w, some Q'') ∧
      Q''.startC = flip σ τ P'.startC ∧ Q''.startD = flip σ τ P'.startD ∧ Q''.exitC = flip σ τ P'.exitC ∧ Q''.exitD = flip σ τ P'.exitD ∧
      (Q''.exitE = P'.exitE ∨ Q''.exitE = ⟨-P'.exitE.x, -P'.exitE.y, -P'.exitE.z⟩) ∧ Q''.i_refl = P'.i_refl ∧ Q''.d_travel = P'.d_travel :=
    fun {c w P' Q'} i => ⟨Q', rfl, i.startC, i.startD, i.exitC, i.exitD, i.exitE.same, i.i_refl, i.d_travel⟩
  have hI0 : Image σ τ P (mirrored σ τ P) := ⟨rfl, rfl, rfl, rfl, axial_flip hσ hτ hE, rfl, rfl, rfl, rfl⟩
  unfold launch at h ⊢
  simp only at h ⊢
  split_ifs at h ⊢ with hbad
  · injection h with h
    simp only [Prod.mk.injEq, Option.some.injEq] at h
    obtain ⟨rfl, rfl, rfl⟩ := h
    exact fin hI0
  · have hI : Image σ τ (launchInit lib D es P) (launchInit lib D es (mirrored σ τ P)) := by
      refine ⟨rfl, ?_, rfl, ?_, axial_flip hσ hτ hE, rfl, rfl, rfl, rfl⟩
      · simp only [launchInit, mirrored, vnorm_flip hσ hτ]
      · simp only [launchInit, mirrored, vnorm_flip hσ hτ]
    unfold launchBody at h ⊢
    simp only at h ⊢
    generalize launchInit lib D es P = P0 at h hI
    generalize launchInit lib D es (mirrored σ τ P) = Q0 at hI ⊢
    have hz : Q0.startC.z = P0.startC.z := by rw [hI.startC]; rfl
    have hrad : Q0.startC.x *. Q0.startC.x +. Q0.startC.y *. Q0.startC.y = P0.startC.x *. P0.startC.x +. P0.startC.y *. P0.startC.y := by
      rw [hI.startC]; simp only [flip, real_mul, real_add, prod_flip hσ, prod_flip hτ]
    have hlc : launchCap D Q0.startC = launchCap D P0.startC := by
      unfold launchCap
      simp only [hns, if_true, hz, hrad]
    rw [hlc]
    cases hcap : launchCap D P0.startC with
    | none =>
      simp only [hcap, Out.bind_ok] at h ⊢
      injection h with h
      simp only [Prod.mk.injEq, Option.some.injEq] at h
      obtain ⟨rfl, rfl, rfl⟩ := h
      exact fin ⟨hI.startC, hI.startD, hI.exitC, hI.exitD, hI.exitE, hI.i_refl, hI.d_travel, rfl, rfl⟩
    | some qr =>
      have hqr : qr = (0, 0) := by
        rcases launchCap_some hcap with ⟨-, h⟩ | ⟨h, -⟩
        · exact h
        · exact absurd hns h
      subst hqr
      have hat : ∀ (f : Nat → ℝ) (z : ℝ), (∀ i, f i = 0) → atStart D.prof f z = 0 := by
        intro f z hf
        unfold atStart interpAt interp
        simp [hf]
      have hwall : startsInWall D (0, 0) Q0.startC = startsInWall D (0, 0) P0.startC := by
        unfold startsInWall
        simp only [hat _ _ hax, hat _ _ hay, hz, real_sub, sub_zero, hrad]
      simp only [hcap, hwall, Bool.false_and, Bool.false_eq_true, if_false] at h ⊢
      split_ifs at h ⊢ with hw
      · simp only [Out.bind_ok] at h ⊢
        injection h with h
        simp only [Prod.mk.injEq, Option.some.injEq] at h
        obtain ⟨rfl, rfl, rfl⟩ := h
        exact fin ⟨hI.startC, hI.startD, hI.exitC, hI.exitD, hI.exitE, hI.i_refl, hI.d_travel, rfl, rfl⟩
      · unfold launchInside at h ⊢
        rw [hz]
        dsimp only at h ⊢
        have hl := loop_flip hσ hτ hns hax hay fuel k (D.prof.nmax + 1) 0 (segIdFrom D.prof.z 0 P0.startC.z (D.prof.nmax + 1)) hI
        generalize traceLoop (trace D false fuel k (axX D (0, 0)) (axY D (0, 0))) (D.prof.nmax + 1) 0 (segIdFrom D.prof.z 0 P0.startC.z (D.prof.nmax + 1)) P0 = x at h hl
        generalize traceLoop (trace D false fuel k (axX D (0, 0)) (axY D (0, 0))) (D.prof.nmax + 1) 0 (segIdFrom D.prof.z 0 P0.startC.z (D.prof.nmax + 1)) Q0 = y at hl ⊢
        cases hl with
        | ub => rw [Out.bind_ub, Out.bind_ub] at h; cases h
        | fuel => rw [Out.bind_fuel, Out.bind_fuel] at h; cases h
        | @ok c' i P1 Q1 hi =>
          simp only [Out.bind_ok] at h ⊢
          injection h with h
          simp only [Prod.mk.injEq, Option.some.injEq] at h
          obtain ⟨rfl, rfl, rfl⟩ := h
          rw [hi.chans]
          exact fin ⟨hi.startC, hi.startD, hi.exitC, hi.exitD, hi.exitE, hi.i_refl, hi.d_travel, rfl, rfl⟩

/-! ## Oblique polarisation -/

open Bore Polycap.Tube Route

/-- glass with the refractive index 41/50 for 10 keV -/
noncomputable def mLib : Xray ℝ := ⟨fun _ _ => 0, fun z _ => 9 / 50 / reflAlfa 10 (223/100) 1 - z, fun _ => 1⟩

theorem alfa_unit : 0 < reflAlfa (10:ℝ) (223/100) 1 := by
  simp only [reflAlfa, cHC, cNAVOG, cR0, real_mul, real_div, real_lit, mpi]
  push_cast
  positivity

theorem m_scatf : scatfOf mLib (tD (3/4) 4 5) 10 = 9 / 50 / reflAlfa 10 (223/100) 1 := by
  simp [scatfOf, tD, mLib]

theorem m_amu : amuOf mLib (tD (3/4) 4 5) 10 = 0 := by simp [amuOf, tD, mLib]

theorem m_alfa : reflAlfa 10 (223/100) (9 / 50 / reflAlfa 10 (223/100) 1) = (9 / 50 : ℝ) := by
  have h := alfa_unit.ne'
  have lin : ∀ x : ℝ, reflAlfa (10:ℝ) (223/100) x = reflAlfa 10 (223/100) 1 * x := by
    intro x; simp only [reflAlfa, real_mul, mul_one]
  rw [lin, mul_div_cancel₀ _ h]

theorem m_index : reflN (10:ℝ) (223/100) (9 / 50 / reflAlfa 10 (223/100) 1) 0 = ⟨41/50, 0⟩ := by
  have e1 : ((1:ℚ):ℝ) = 1 := by norm_num
  simp only [reflN, m_alfa, reflBeta, real_sub, real_lit, real_mul, real_div, zero_div, mul_zero, e1]
  norm_num

/-- reflectivity of this glass for the angle of incidence with cosine 3/5 -/
theorem m_reflTot (f : ℝ) : reflTot ⟨41/50, 0⟩ (Real.arccos (3/5)) f = 49/169 * f + 866761/5909761 * (1 - f) := by
  have e1 : ((1:ℚ):ℝ) = 1 := by norm_num
  have em1 : ((-1:ℚ):ℝ) = -1 := by norm_num
  have e2 : ((2:ℚ):ℝ) = 2 := by norm_num
  have e0 : ((0:ℚ):ℝ) = 0 := by norm_num
  have hc : Real.cos (Real.arccos (3/5)) = 3/5 := Real.cos_arccos (by norm_num) (by norm_num)
  have hs : Real.sin (Real.arccos (3/5)) = 4/5 := by
    rw [Real.sin_arccos, show (1 - (3/5) ^ 2 : ℝ) = (4/5) ^ 2 by norm_num, Real.sqrt_sq (by norm_num)]
  have hq : csqrt (⟨(9/41) ^ 2, 0⟩ : Cx ℝ) = ⟨9/41, 0⟩ := by
    have hm : cabs (⟨(9/41) ^ 2, 0⟩ : Cx ℝ) = (9/41) ^ 2 := by
      simp only [cabs, real_mul, real_add, real_sqrt, mul_zero, add_zero]
      exact Real.sqrt_mul_self (by positivity)
    simp only [csqrt, hm, real_add, real_sub, real_div, real_lit, real_sqrt, real_neg, real_lt, e2, e0, sub_self, zero_div, Real.sqrt_zero, add_self_div_two,
      lt_irrefl, decide_false, Bool.false_eq_true, if_false]
    rw [Real.sqrt_sq (by norm_num)]
  have hw : reflW ⟨41/50, 0⟩ (4/5 : ℝ) = ⟨9/41, 0⟩ := by
    rw [← hq]
    unfold reflW
    simp only
    congr 1
    simp only [cinv, cmul, cscale, real_mul, real_add, real_sub, real_div, real_lit, real_neg, e1, em1, Cx.mk.injEq]
    norm_num
  simp only [reflTot, real_sin, real_cos, hc, hs, hw, reflRs, reflRp, cinv, cmul, cscale, cabs, real_mul, real_add, real_sub, real_div, real_lit, real_sqrt, real_neg, e1, em1]
  rw [Real.mul_self_sqrt (by positivity), Real.mul_self_sqrt (by positivity)]
  norm_num

/-- the direction of a photon in this example, for `s = 1`, and of its mirror image -/
noncomputable def mDir (s : ℝ) : V3 ℝ := ⟨s * (12/25), 9/25, 4/5⟩

/-- a photon on the axis with electric vector `E` -/
noncomputable def mPh (s : ℝ) (E : V3 ℝ) : Photon ℝ := { exP ⟨0, 0, 0⟩ (mDir s) 0 with startE := E, exitE := E }

theorem m_unit {s : ℝ} (hs : Sign s) : dot (mDir s) (mDir s) = 1 := by
  rcases hs with rfl | rfl <;> simp only [dot, mDir] <;> norm_num

theorem m_lateral {s : ℝ} (hs : Sign s) : lateral (mDir s) = (3/5) ^ 2 := by
  rcases hs with rfl | rfl <;> simp only [lateral, mDir] <;> norm_num

/-- reflectivity of light with the share `f` of perpendicular polarisation -/
noncomputable def mR (f : ℝ) : ℝ := 49/169 * f + 866761/5909761 * (1 - f)

theorem m_launch {s : ℝ} (hs : Sign s) (E : V3 ℝ) (hE : dot E E ≠ 0) :
    ∃ P', launch mLib (some (tD (3/4) 4 5)) false 0 1 (some (mPh s E)) (some [10]) true =
      .ok (1, .filled [mR (share (3/4) 0 0 E ⟨0, 0, 0⟩ (mDir s) 0) * mR (share (3/4) 0 0 E ⟨0, 0, 0⟩ (mDir s) 1)], some P') := by
  have hv : vnorm (mDir s) = mDir s := vnorm_unit _ (m_unit hs)
  have hl := m_lateral hs
  have hz : (mDir s).z = 4/5 := rfl
  have hch : chord (3/4) 0 0 ⟨0, 0, 0⟩ (mDir s) = 9/20 := by
    unfold chord
    rw [hl]
    simp only [drift, off]
    rw [show ((0 - 0) * (mDir s).x + (0 - 0) * (mDir s).y) ^ 2 + (3/5) ^ 2 * ((3/4) ^ 2 - ((0 - 0) ^ 2 + (0 - 0) ^ 2)) = (9/20 : ℝ) ^ 2 by ring, Real.sqrt_sq (by norm_num)]
  have hh : hitZ (3/4) 0 0 ⟨0, 0, 0⟩ (mDir s) = fun k : Nat => 2 * (k : ℝ) + 1 := by
    funext k
    unfold hitZ
    rw [hch, hl, hz]
    simp only [drift]
    ring
  obtain ⟨rc, ws, P', h, hp, -⟩ := launch_straight mLib (tD (3/4) 4 5) 0 0 (mPh s E) [10] (by simp) (by simp; norm_num)
    ⟨by norm_num [tD], fun e he => by
        simp only [List.mem_singleton] at he; subst he; rw [m_scatf]; exact div_nonneg (by norm_num) alfa_unit.le,
      fun e he => by simp only [List.mem_singleton] at he; subst he; rw [m_amu], fun e he => by
        simp only [List.mem_singleton] at he; subst he; rw [m_scatf]; simp only [tD]; rw [m_alfa]; norm_num⟩
    (t_scatf _ _ _) (by simp [tD]) (by simp [tD]) (tGrid (by norm_num)) (r := 3/4) (X := 5) (Δ := 4) (by norm_num) (fun _ _ => rfl) (fun _ _ => rfl)
    (by intro i hi; simp [tD] at hi ⊢; linarith) (by norm_num) (by
      show 3/4 + 4 * Real.sqrt (lateral (vnorm (mDir s))) / (vnorm (mDir s)).z ≤ _
      rw [hv, hl, Real.sqrt_sq (by norm_num), hz]
      have h3 : (3/2:ℝ) ≤ Real.sqrt 3 := by rw [show (3/2:ℝ) = Real.sqrt ((3/2)^2) by rw [Real.sqrt_sq (by norm_num)]]; exact Real.sqrt_le_sqrt (by norm_num)
      linarith) (by norm_num) (by simp [mPh, exP]; norm_num) (by simp [mPh, exP]) (by simp [mPh, exP, tD]) (by show (0:ℝ) < 4/5; norm_num) (by
      show 0 < lateral (mDir s)
      rw [hl]; norm_num) hE (N := 2) (by
      show Hits _ _ 0 0 ⟨0, 0, 0⟩ (vnorm (mDir s)) 2
      rw [hv]
      refine ⟨?_, ?_, ?_, ?_, ?_, ?_⟩
      · intro _; rw [hh]; norm_num
      · intro _; rw [hch, hl, hz]; norm_num
      · intro _; rw [hch]; norm_num
      · intro k hk i hi
        rw [hh]
        simp only [tD] at hi ⊢
        interval_cases k <;> interval_cases i <;> norm_num
      · intro k hk
        rw [hh]
        simp only [tD]
        interval_cases k <;> norm_num
      · rw [hh]; simp only [tD]; norm_num) (by simp [tD])
  have q1 : (mPh s E).startD = mDir s := rfl
  have q2 : (mPh s E).startC = ⟨0, 0, 0⟩ := rfl
  have q3 : (mPh s E).exitE = E := rfl
  rw [q1, q2, q3, hv, hch, show (9/20 / (3/4) : ℝ) = 3/5 by norm_num] at hp
  have hr0 : ∀ e : ℝ, roughFactor (tD (3/4) 4 5).sig_rough e (3/5) = 1 := by
    intro e
    simp [roughFactor, tD]
  have hk : ∀ φ : Nat → ℝ, ∀ n, kept mLib (tD (3/4) 4 5) (3/5) φ n 10 = ∏ k ∈ Finset.range n, mR (φ k) := by
    intro φ n
    unfold kept
    apply Finset.prod_congr rfl
    intro k _
    rw [hr0, m_scatf, m_amu, mul_one]
    simp only [tD]
    rw [m_index, m_reflTot]
    rfl
  have hb : ∀ f : ℝ, 0 ≤ f ∧ f ≤ 1 → 1/8 ≤ mR f := by
    intro f hf
    unfold mR
    nlinarith [hf.1, hf.2]
  have h0 := hb _ (share_unit (3/4) 0 0 E ⟨0, 0, 0⟩ (mDir s) 0)
  have h1 := hb _ (share_unit (3/4) 0 0 E ⟨0, 0, 0⟩ (mDir s) 1)
  generalize share (3/4) 0 0 E ⟨0, 0, 0⟩ (mDir s) = φ at *
  generalize P'.i_refl = m at hp
  generalize P'.exitC.z = zz at hp
  cases hp with
  | out _ =>
    refine ⟨P', ?_⟩
    rw [h]
    simp only [List.map_cons, List.map_nil, hk, Finset.prod_range_succ, Finset.prod_range_zero, one_mul]
  | absorbed m hm ha =>
    exfalso
    have := ha 10 (by simp)
    rw [hk] at this
    interval_cases m
    · simp only [Finset.prod_range_succ, Finset.prod_range_zero, one_mul] at this
      norm_num at this
      linarith
    · simp only [Finset.prod_range_succ, Finset.prod_range_zero, one_mul] at this
      norm_num at this
      nlinarith

theorem m_share {s : ℝ} (hs : Sign s) (E : V3 ℝ) (hE : dot E E = 1) (hz : E.z = 0) :
    share (3/4) 0 0 E ⟨0, 0, 0⟩ (mDir s) 0 = (E.x * (3/5) - s * (E.y * (4/5))) ^ 2 ∧
    share (3/4) 0 0 E ⟨0, 0, 0⟩ (mDir s) 1 = (|E.x| * (3/5) - s * (|E.y| * (4/5))) ^ 2 := by
  have hss := hs.sq
  have hl := m_lateral hs
  have hch : chord (3/4) 0 0 ⟨0, 0, 0⟩ (mDir s) = 9/20 := by
    unfold chord
    rw [hl]
    simp only [drift, off]
    rw [show ((0 - 0) * (mDir s).x + (0 - 0) * (mDir s).y) ^ 2 + (3/5) ^ 2 * ((3/4) ^ 2 - ((0 - 0) ^ 2 + (0 - 0) ^ 2)) = (9/20 : ℝ) ^ 2 by ring, Real.sqrt_sq (by norm_num)]
  have hh : hitZ (3/4) 0 0 ⟨0, 0, 0⟩ (mDir s) 0 = 1 := by
    unfold hitZ
    rw [hch, hl]
    simp only [drift, mDir]
    norm_num
  have hp1 : lineAt (⟨0, 0, 0⟩ : V3 ℝ) (mDir s) 1 = ⟨s * (3/5), 9/20, 1⟩ := by
    simp only [lineAt, mDir, V3.mk.injEq]
    norm_num
    ring
  have hn1 : normalAt (3/4) 0 0 (⟨s * (3/5), 9/20, 1⟩ : V3 ℝ) = ⟨s * (4/5), 3/5, 0⟩ := by
    simp only [normalAt, V3.mk.injEq]
    norm_num
    ring
  have hs1 : sDir (⟨s * (4/5), 3/5, 0⟩ : V3 ℝ) (mDir s) = ⟨3/5, -(s * (4/5)), 0⟩ := by
    unfold sDir
    have : cross (⟨s * (4/5), 3/5, 0⟩ : V3 ℝ) (mDir s) = ⟨4/5 * (3/5), 4/5 * (-(s * (4/5))), 4/5 * 0⟩ := by
      simp only [cross, mDir, real_mul, real_sub, V3.mk.injEq]
      refine ⟨?_, ?_, ?_⟩ <;> ring
    rw [this]
    have h := vnorm_scaled (k := 4/5) (by norm_num) (⟨3/5, -(s * (4/5)), 0⟩ : V3 ℝ)
    rw [show (⟨4/5 * (3/5), 4/5 * (-(s * (4/5))), 4/5 * 0⟩ : V3 ℝ) = ⟨3/5 * (4/5), -(s * (4/5)) * (4/5), 0 * (4/5)⟩ by simp only [V3.mk.injEq]; refine ⟨?_, ?_, ?_⟩ <;> ring]
    rw [h]
    apply vnorm_unit
    simp only [dot]
    linear_combination (16/25) * hss
  have hd2 : mirror (mDir s) ⟨s * (4/5), 3/5, 0⟩ = ⟨-(s * (12/25)), -(9/25), 4/5⟩ := by
    simp only [mirror, dot, mDir, V3.mk.injEq]
    refine ⟨?_, ?_, ?_⟩
    · linear_combination -(s * (96 * 4 / (125 * 5))) * hss
    · linear_combination -(48 * 6 / (125 * 5)) * hss
    · ring
  have hnext : next (3/4) 0 0 (⟨0, 0, 0⟩, mDir s) = (⟨s * (3/5), 9/20, 1⟩, ⟨-(s * (12/25)), -(9/25), 4/5⟩) := by
    simp only [next, hh, hp1, hn1, hd2]
  have hl2 : lateral (⟨-(s * (12/25)), -(9/25), 4/5⟩ : V3 ℝ) = (3/5) ^ 2 := by
    simp only [lateral]
    linear_combination (144/625) * hss
  have hdr2 : drift 0 0 (⟨s * (3/5), 9/20, 1⟩ : V3 ℝ) ⟨-(s * (12/25)), -(9/25), 4/5⟩ = -(9/20) := by
    simp only [drift]
    linear_combination -(36/125) * hss
  have hoff2 : off 0 0 (⟨s * (3/5), 9/20, 1⟩ : V3 ℝ) = (3/4) ^ 2 := by
    simp only [off]
    linear_combination (9/25) * hss
  have hch2 : chord (3/4) 0 0 ⟨s * (3/5), 9/20, 1⟩ ⟨-(s * (12/25)), -(9/25), 4/5⟩ = 9/20 := by
    unfold chord
    rw [hdr2, hoff2, sub_self, mul_zero, add_zero, show (-(9/20) : ℝ) ^ 2 = (9/20) ^ 2 by norm_num, Real.sqrt_sq (by norm_num)]
  have hh2 : hitZ (3/4) 0 0 ⟨s * (3/5), 9/20, 1⟩ ⟨-(s * (12/25)), -(9/25), 4/5⟩ 0 = 3 := by
    unfold hitZ
    rw [hch2, hl2, hdr2]
    norm_num
  have hp2 : lineAt (⟨s * (3/5), 9/20, 1⟩ : V3 ℝ) ⟨-(s * (12/25)), -(9/25), 4/5⟩ 3 = ⟨-(s * (3/5)), -(9/20), 3⟩ := by
    simp only [lineAt, V3.mk.injEq]
    refine ⟨?_, ?_, trivial⟩ <;> ring
  have hn2 : normalAt (3/4) 0 0 (⟨-(s * (3/5)), -(9/20), 3⟩ : V3 ℝ) = ⟨-(s * (4/5)), -(3/5), 0⟩ := by
    simp only [normalAt, V3.mk.injEq]
    refine ⟨?_, ?_, trivial⟩ <;> ring
  have hs2 : sDir (⟨-(s * (4/5)), -(3/5), 0⟩ : V3 ℝ) ⟨-(s * (12/25)), -(9/25), 4/5⟩ = ⟨-(3/5), s * (4/5), 0⟩ := by
    unfold sDir
    have : cross (⟨-(s * (4/5)), -(3/5), 0⟩ : V3 ℝ) ⟨-(s * (12/25)), -(9/25), 4/5⟩ = ⟨-(3/5) * (4/5), s * (4/5) * (4/5), 0 * (4/5)⟩ := by
      simp only [cross, real_mul, real_sub, V3.mk.injEq]
      refine ⟨?_, ?_, ?_⟩ <;> ring
    rw [this, vnorm_scaled (k := 4/5) (by norm_num) (⟨-(3/5), s * (4/5), 0⟩ : V3 ℝ)]
    apply vnorm_unit
    simp only [dot]
    linear_combination (16/25) * hss
  constructor
  · unfold share
    simp only [Function.iterate_zero, id_eq, if_true, hh, hp1, hn1, hs1, vnorm_unit _ hE]
    simp only [dot, hz]
    ring
  · unfold share
    have hu : dot (absV E) (absV E) = 1 := by rw [absV_dot, hE]
    simp only [Function.iterate_one, hnext, hh2, hp2, hn2, hs2, one_ne_zero, if_false, vnorm_unit _ hE, vnorm_unit _ hu]
    simp only [dot, absV, hz]
    ring

/-- Finding: a photon polarised obliquely and its mirror image come out with different weights. -/
theorem mirror_images_differ : ∃ (w w' : ℝ) (P' Q' : Photon ℝ),
    launch mLib (some (tD (3/4) 4 5)) false 0 1 (some (mPh 1 ⟨-(3/5), 4/5, 0⟩)) (some [10]) true = .ok (1, .filled [w], some P') ∧
    launch mLib (some (tD (3/4) 4 5)) false 0 1 (some (mirrored (-1) 1 (mPh 1 ⟨-(3/5), 4/5, 0⟩))) (some [10]) true = .ok (1, .filled [w'], some Q') ∧
    w < w' := by
  have e : mirrored (-1) 1 (mPh 1 ⟨-(3/5), 4/5, 0⟩) = mPh (-1) ⟨3/5, 4/5, 0⟩ := by
    simp only [mirrored, mPh, exP, mDir, flip, Photon.mk.injEq, V3.mk.injEq]
    norm_num
  have h1 : dot (⟨-(3/5), 4/5, 0⟩ : V3 ℝ) ⟨-(3/5), 4/5, 0⟩ = 1 := by simp only [dot]; norm_num
  have h2 : dot (⟨3/5, 4/5, 0⟩ : V3 ℝ) ⟨3/5, 4/5, 0⟩ = 1 := by simp only [dot]; norm_num
  obtain ⟨P', a⟩ := m_launch (Or.inl rfl : Sign 1) ⟨-(3/5), 4/5, 0⟩ (by rw [h1]; norm_num)
  obtain ⟨Q', b⟩ := m_launch (Or.inr rfl : Sign (-1)) ⟨3/5, 4/5, 0⟩ (by rw [h2]; norm_num)
  obtain ⟨a1, a2⟩ := m_share (Or.inl rfl : Sign 1) ⟨-(3/5), 4/5, 0⟩ h1 rfl
  obtain ⟨b1, b2⟩ := m_share (Or.inr rfl : Sign (-1)) ⟨3/5, 4/5, 0⟩ h2 rfl
  rw [e]
  refine ⟨_, _, P', Q', a, b, ?_⟩
  rw [a1, a2, b1, b2]
  simp only [mR, abs_neg, abs_of_pos (show (0:ℝ) < 3/5 by norm_num), abs_of_pos (show (0:ℝ) < 4/5 by norm_num)]
  norm_num

/-- photons that meet the hypotheses of `launch_mirror_partial`: any of this example polarised along an axis, which come out after two reflections -/
example : ∃ (w : WOut ℝ) (P' Q' : Photon ℝ), launch mLib (some (tD (3/4) 4 5)) false 0 1 (some (mPh 1 ⟨1, 0, 0⟩)) (some [10]) true = .ok (1, w, some P') ∧
    launch mLib (some (tD (3/4) 4 5)) false 0 1 (some (mirrored (-1) 1 (mPh 1 ⟨1, 0, 0⟩))) (some [10]) true = .ok (1, w, some Q') ∧ Q'.exitD = flip (-1) 1 P'.exitD := by
  obtain ⟨P', a⟩ := m_launch (Or.inl rfl : Sign 1) ⟨1, 0, 0⟩ (by simp [dot])
  obtain ⟨Q', b, -, -, -, c, -⟩ := launch_mirror_partial mLib (tD (3/4) 4 5) (by simp [tD]) (by simp [tD]) 0 1 (mPh 1 ⟨1, 0, 0⟩) [10] (Or.inr rfl : Sign (-1)) (Or.inl rfl : Sign 1)
    (Or.inl ⟨rfl, rfl⟩) _ _ _ a
  exact ⟨_, P', Q', a, b, c⟩

end Mirror
end Polycap
