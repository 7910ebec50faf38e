import Verif.Props.Mirror
import Verif.Props.HexOpen
import Verif.Props.Deflect

/-!
# C103: the way of a photon is a matter of geometry alone, and the optic its own mirror image

The capillaries of a polycapillary lie on a hexagonal lattice, which is its own mirror image in the planes x = 0 and y = 0.  Mirror images of photons must therefore travel along
mirror images of the ways, whatever their energies and polarisations, the glass, and whether leaks are calculated.
-/
namespace Polycap
open CNum
namespace Mirror
open EInd Polar

variable {σ τ : ℝ}

/-- one segment of any capillary -/
theorem segment_flip_any (hσ : Sign σ) (hτ : Sign τ) (c0 c1 : V3 ℝ) (r0 r1 : ℝ) (p0 p1 d cur nrm : V3 ℝ) :
    segment (flip σ τ c0) (flip σ τ c1) r0 r1 (flip σ τ p0) (flip σ τ p1) (flip σ τ d) (flip σ τ cur) (flip σ τ nrm) =
      ((segment c0 c1 r0 r1 p0 p1 d cur nrm).1, flip σ τ (segment c0 c1 r0 r1 p0 p1 d cur nrm).2.1, flip σ τ (segment c0 c1 r0 r1 p0 p1 d cur nrm).2.2) := by
  have e0 : (lit 0 : ℝ) = 0 := by simp
  have hrej : segRejects (flip σ τ c0) (flip σ τ c1) r0 r1 (flip σ τ p0) (flip σ τ p1) (flip σ τ d) = segRejects c0 c1 r0 r1 p0 p1 d := rfl
  unfold segment
  simp only [hrej, vnorm_flip hσ hτ, vsub_flip, e0]
  generalize vnorm d = u
  generalize hcd : vsub c1 c0 = w
  have hA : segA (flip σ τ c0) (flip σ τ c1) r0 r1 (flip σ τ u) (flip σ τ w) = segA c0 c1 r0 r1 u w := by
    simp only [segA, segSlopes, segTaper, flip, real_mul, real_add, real_sub, real_div, mul_div_assoc, ← mul_sub, prod_flip hσ, prod_flip hτ]
  have hB : segB (flip σ τ c0) (flip σ τ c1) r0 r1 (flip σ τ p0) (flip σ τ u) (flip σ τ w) = segB c0 c1 r0 r1 p0 u w := by
    simp only [segB, segSlopes, segTaper, flip, real_mul, real_add, real_sub, real_div, real_lit, mul_div_assoc, ← mul_sub]
    linear_combination 2 * ((p0.x - c0.x) * (u.x / u.z - w.x / w.z)) * hσ.sq + 2 * ((p0.y - c0.y) * (u.y / u.z - w.y / w.z)) * hτ.sq
  have hC : segC (flip σ τ c0) r0 (flip σ τ p0) = segC c0 r0 p0 := by
    simp only [segC, flip, real_mul, real_add, real_sub, ← mul_sub, prod_flip hσ, prod_flip hτ]
  rw [hA, hB, hC]
  have z_f : ∀ v : V3 ℝ, (flip σ τ v).z = v.z := fun _ => rfl
  simp only [z_f]
  have hz : flip σ τ ⟨0, 0, 0⟩ = ⟨0, 0, 0⟩ := axis_flip 0
  split_ifs
  · rfl
  · cases segSolve (segA c0 c1 r0 r1 u w) (segB c0 c1 r0 r1 p0 u w) (segC c0 r0 p0) p0.z c0.z c1.z cur.z with
    | inl code => simp only [hz]
    | inr z =>
      dsimp only
      have hv : (⟨(flip σ τ p0).x +. (z -. p0.z) /. u.z *. (flip σ τ u).x, (flip σ τ p0).y +. (z -. p0.z) /. u.z *. (flip σ τ u).y, z⟩ : V3 ℝ) =
          flip σ τ ⟨p0.x +. (z -. p0.z) /. u.z *. u.x, p0.y +. (z -. p0.z) /. u.z *. u.y, z⟩ := by
        simp only [flip, real_mul, real_add, real_sub, real_div, V3.mk.injEq, and_true]
        constructor <;> ring
      rw [hv]
      split_ifs
      · simp only [hz]
      · simp only [hz]
      · simp only [hz]
      · refine Prod.ext rfl (Prod.ext rfl ?_)
        generalize (⟨p0.x +. (z -. p0.z) /. u.z *. u.x, p0.y +. (z -. p0.z) /. u.z *. u.y, z⟩ : V3 ℝ) = v
        simp only
        unfold segNormal
        simp only [vsub_flip, scalar_flip hσ hτ]
        have hfoot : ∀ f : ℝ, (⟨(flip σ τ c0).x +. f *. (flip σ τ w).x, (flip σ τ c0).y +. f *. (flip σ τ w).y, (flip σ τ c0).z +. f *. (flip σ τ w).z⟩ : V3 ℝ) =
            flip σ τ ⟨c0.x +. f *. w.x, c0.y +. f *. w.y, c0.z +. f *. w.z⟩ := by
          intro f
          simp only [flip, real_mul, real_add, V3.mk.injEq, and_true]
          constructor <;> ring
        rw [hfoot, vsub_flip, scalar_flip hσ hτ, ← vnorm_flip hσ hτ]
        congr 1
        simp only [flip, real_mul, real_add, real_div, V3.mk.injEq, and_true]
        constructor <;> ring

/-- the search in the mirror image of a capillary -/
theorem search_flip_any (hσ : Sign σ) (hτ : Sign τ) {D D' : Descr ℝ} (hp : D'.prof = D.prof) (hn : D'.n_cap = D.n_cap) {capx capy capx' capy' : Nat → ℝ} (hx : ∀ i, capx' i = σ * capx i)
    (hy : ∀ i, capy' i = τ * capy i) {P Q : Photon ℝ} (hc : Q.exitC = flip σ τ P.exitC) (hd : Q.exitD = flip σ τ P.exitD) :
    ∀ (k i : Nat) (cur nrm : V3 ℝ), traceSearch D' capx' capy' Q k i (flip σ τ cur) (flip σ τ nrm) = flipHit σ τ (traceSearch D capx capy P k i cur nrm) := by
  intro k
  induction k with
  | zero => intro i cur nrm; rfl
  | succ k ih =>
    intro i cur nrm
    unfold traceSearch
    have hcen : ∀ j, (⟨σ * capx j, τ * capy j, D.prof.z j⟩ : V3 ℝ) = flip σ τ ⟨capx j, capy j, D.prof.z j⟩ := fun _ => rfl
    simp only [hx, hy, hc, hd, hp, hn, within_flip hσ hτ]
    simp only [hcen, atGrid_flip, segment_flip_any hσ hτ, scalar_flip hσ hτ]
    generalize segment (⟨capx i, capy i, D.prof.z i⟩ : V3 ℝ) ⟨capx (i + 1), capy (i + 1), D.prof.z (i + 1)⟩ (D.prof.cap i) (D.prof.cap (i + 1)) (atGrid D.prof P.exitC P.exitD i)
      (atGrid D.prof P.exitC P.exitD (i + 1)) P.exitD cur nrm = s
    have hrad : ∀ v : V3 ℝ, sqrt ((flip σ τ v).x *. (flip σ τ v).x +. (flip σ τ v).y *. (flip σ τ v).y) = sqrt (v.x *. v.x +. v.y *. v.y) := by
      intro v; simp only [flip, real_mul, real_add, prod_flip hσ, prod_flip hτ]
    have hz : ∀ v : V3 ℝ, (flip σ τ v).z = v.z := fun _ => rfl
    have hw : ∀ (R : ℝ) (v : V3 ℝ), withinPcBoundary R (flip σ τ v).x (flip σ τ v).y = withinPcBoundary R v.x v.y := fun R v => within_flip hσ hτ R v.x v.y
    simp only [hrad, hz, hw, ih]
    split_ifs <;> rfl

/-- `Q` is where the mirror image of `P` would be, and has made as many reflections; its way so far is longer by `δ` -/
structure Way (σ τ δ : ℝ) (P Q : Photon ℝ) : Prop where
  exitC : Q.exitC = flip σ τ P.exitC
  exitD : Q.exitD = flip σ τ P.exitD
  i_refl : Q.i_refl = P.i_refl
  d_travel : Q.d_travel = P.d_travel + δ

/-- return values of the tracing function for photons absorbed or lost -/
def Lost (c : Int) : Prop := c = 0 ∨ c = -1 ∨ c = -3

theorem reflect_track {D : Descr ℝ} {leak : Bool} {fuel k : Nat} {n : V3 ℝ} {P P' : Photon ℝ} {c : Int} (h : reflect D leak fuel k n P = .ok (c, P')) :
    P'.exitC = P.exitC ∧ P'.exitD = vnorm P.exitD ∧ P'.i_refl = P.i_refl ∧ P'.d_travel = P.d_travel ∧ (c = -2 ∨ c = -1 ∨ c = 0 ∨ c = 1) := by
  obtain ⟨f, d, hc⟩ := reflect_frame D leak fuel k n P c P' h
  rw [Total.vnorm_vnorm, or_self] at d
  exact ⟨f.exitC, d, f.i_refl, f.d_travel, hc⟩

theorem trace_way (hσ : Sign σ) (hτ : Sign τ) {D D' : Descr ℝ} (hp : D'.prof = D.prof) (hn : D'.n_cap = D.n_cap) {capx capy capx' capy' : Nat → ℝ} (hx : ∀ i, capx' i = σ * capx i)
    (hy : ∀ i, capy' i = τ * capy i) {leak leak' : Bool} {fuel fuel' k k' ix : Nat} {δ : ℝ} {P Q : Photon ℝ} (h : Way σ τ δ P Q) {x y : Int × Nat × Photon ℝ}
    (h1 : trace D leak fuel k capx capy ix P = .ok x) (h2 : trace D' leak' fuel' k' capx' capy' ix Q = .ok y) :
    (y.1 = x.1 ∧ y.2.1 = x.2.1 ∧ Way σ τ δ x.2.2 y.2.2) ∨ Lost x.1 ∨ Lost y.1 := by
  have h0 : Way σ τ δ { P with exitD := vnorm P.exitD, startD := vnorm P.startD } { Q with exitD := vnorm Q.exitD, startD := vnorm Q.startD } :=
    ⟨h.exitC, by simp only [h.exitD, vnorm_flip hσ hτ], h.i_refl, h.d_travel⟩
  have e0 : (lit 0 : ℝ) = 0 := by simp
  have hs := search_flip_any hσ hτ hp hn hx hy h0.exitC h0.exitD (D.prof.nmax - ix) ix P.exitC ⟨0, 0, 0⟩
  rw [axis_flip, ← h.exitC] at hs
  unfold trace capilTrace at h1 h2
  simp only [e0, hp] at hs h1 h2
  generalize ({ P with exitD := vnorm P.exitD, startD := vnorm P.startD } : Photon ℝ) = P0 at h0 hs h1
  generalize ({ Q with exitD := vnorm Q.exitD, startD := vnorm Q.startD } : Photon ℝ) = Q0 at h0 hs h2
  rw [hs] at h2
  cases hS : traceSearch D capx capy P0 (D.prof.nmax - ix) ix P.exitC ⟨0, 0, 0⟩ with
  | ret c =>
    rw [hS] at h1 h2
    simp only [flipHit] at h1 h2
    cases h1; cases h2
    exact Or.inl ⟨rfl, rfl, h0⟩
  | miss =>
    rw [hS] at h1 h2
    simp only [flipHit] at h1 h2
    cases h1; cases h2
    exact Or.inl ⟨rfl, rfl, h0⟩
  | hit i v n a =>
    rw [hS] at h1 h2
    simp only [flipHit] at h1 h2
    have w1 : Way σ τ δ { P0 with d_travel := P0.d_travel +. dist3 v P0.exitC, exitC := v } { Q0 with d_travel := Q0.d_travel +. dist3 (flip σ τ v) Q0.exitC, exitC := flip σ τ v } := by
      refine ⟨rfl, h0.exitD, h0.i_refl, ?_⟩
      simp only [h0.d_travel, h0.exitC, dist3_flip hσ hτ, real_add]
      ring
    unfold traceHit at h1 h2
    have hrad : (flip σ τ v).x *. (flip σ τ v).x +. (flip σ τ v).y *. (flip σ τ v).y = v.x *. v.x +. v.y *. v.y := by
      simp only [flip, real_mul, real_add, prod_flip hσ, prod_flip hτ]
    have hz : (flip σ τ v).z = v.z := rfl
    have hw : ∀ R : ℝ, withinPcBoundary R (flip σ τ v).x (flip σ τ v).y = withinPcBoundary R v.x v.y := fun R => within_flip hσ hτ R v.x v.y
    simp only [hrad, hz, hn, hp, hw] at h1 h2
    generalize ({ P0 with d_travel := P0.d_travel +. dist3 v P0.exitC, exitC := v } : Photon ℝ) = P1 at w1 h1
    generalize ({ Q0 with d_travel := Q0.d_travel +. dist3 (flip σ τ v) Q0.exitC, exitC := flip σ τ v } : Photon ℝ) = Q1 at w1 h2
    split_ifs at h1 h2
    · cases h1; exact Or.inr (Or.inl (Or.inr (Or.inl rfl)))
    · cases h1; exact Or.inr (Or.inl (Or.inr (Or.inr rfl)))
    · cases h1; exact Or.inr (Or.inl (Or.inr (Or.inr rfl)))
    · cases hr : reflect D leak fuel k n P1 with
      | ub => rw [hr, Out.bind_ub] at h1; cases h1
      | fuel => rw [hr, Out.bind_fuel] at h1; cases h1
      | ok r =>
        cases hr' : reflect D' leak' fuel' k' (flip σ τ n) Q1 with
        | ub => rw [hr', Out.bind_ub] at h2; cases h2
        | fuel => rw [hr', Out.bind_fuel] at h2; cases h2
        | ok r' =>
          obtain ⟨c, P2⟩ := r
          obtain ⟨c', Q2⟩ := r'
          rw [hr, Out.bind_ok] at h1
          rw [hr', Out.bind_ok] at h2
          cases h1; cases h2
          obtain ⟨a1, a2, a3, a4, a5⟩ := reflect_track hr
          obtain ⟨b1, b2, b3, b4, b5⟩ := reflect_track hr'
          by_cases hc : c = 1
          · by_cases hc' : c' = 1
            · subst hc hc'
              simp only [afterReflect, if_true]
              refine Or.inl ⟨trivial, trivial, ⟨?_, ?_, ?_, ?_⟩⟩
              · show Q2.exitC = flip σ τ P2.exitC
                rw [a1, b1, w1.exitC]
              · show reflectDir Q2.exitD (flip σ τ n) a = flip σ τ (reflectDir P2.exitD n a)
                rw [a2, b2, w1.exitD, vnorm_flip hσ hτ, reflectDir_flip hσ hτ]
              · show Q2.i_refl + 1 = P2.i_refl + 1
                rw [a3, b3, w1.i_refl]
              · show Q2.d_travel = P2.d_travel + δ
                rw [a4, b4, w1.d_travel]
            · refine Or.inr (Or.inr ?_)
              unfold afterReflect Lost
              rcases b5 with rfl | rfl | rfl | rfl <;> simp at hc' ⊢
          · refine Or.inr (Or.inl ?_)
            unfold afterReflect Lost
            rcases a5 with rfl | rfl | rfl | rfl <;> simp at hc ⊢

theorem loop_way (hσ : Sign σ) (hτ : Sign τ) {D D' : Descr ℝ} (hp : D'.prof = D.prof) (hn : D'.n_cap = D.n_cap) {capx capy capx' capy' : Nat → ℝ} (hx : ∀ i, capx' i = σ * capx i)
    (hy : ∀ i, capy' i = τ * capy i) {leak leak' : Bool} {fuel fuel' k k' : Nat} {δ : ℝ} :
    ∀ (M : Nat) {c0 c0' : Int} {ix : Nat} {P Q : Photon ℝ} {x y : Int × Nat × Photon ℝ}, Way σ τ δ P Q →
      traceLoop (trace D leak fuel k capx capy) M c0 ix P = .ok x → traceLoop (trace D' leak' fuel' k' capx' capy') M c0' ix Q = .ok y → ¬ Lost x.1 → ¬ Lost y.1 → Way σ τ δ x.2.2 y.2.2 := by
  intro M
  induction M with
  | zero => intro c0 c0' ix P Q x y h h1 h2 _ _; cases h1; cases h2; exact h
  | succ M ih =>
    intro c0 c0' ix P Q x y h h1 h2 l1 l2
    unfold traceLoop at h1 h2
    cases ht : trace D leak fuel k capx capy ix P with
    | ub => rw [ht, Out.bind_ub] at h1; cases h1
    | fuel => rw [ht, Out.bind_fuel] at h1; cases h1
    | ok u =>
      cases ht' : trace D' leak' fuel' k' capx' capy' ix Q with
      | ub => rw [ht', Out.bind_ub] at h2; cases h2
      | fuel => rw [ht', Out.bind_fuel] at h2; cases h2
      | ok v =>
        rw [ht, Out.bind_ok] at h1
        rw [ht', Out.bind_ok] at h2
        have n1 : ∀ c, Lost c → c ≠ 1 := by rintro c (rfl | rfl | rfl) <;> decide
        have k1 : ¬ Lost u.1 := by
          intro hl
          rw [if_pos (n1 _ hl)] at h1
          cases h1
          exact l1 hl
        have k2 : ¬ Lost v.1 := by
          intro hl
          rw [if_pos (n1 _ hl)] at h2
          cases h2
          exact l2 hl
        rcases trace_way hσ hτ hp hn hx hy h ht ht' with ⟨e1, e2, w⟩ | hl | hl
        · rw [e1, e2] at h2
          split_ifs at h1 h2
          · cases h1; cases h2; exact w
          · exact ih w h1 h2 l1 l2
        · exact absurd hl k1
        · exact absurd hl k2

/-! ## The capillary -/

theorem lattice_flip (hσ : Sign σ) (hτ : Sign τ) (n : ℤ) (q r : ℤ) :
    ∃ q' r' : ℤ, (∀ R, centreX n R q' r' = σ * centreX n R q r) ∧ ∀ R, centreY n R r' = τ * centreY n R r := by
  rcases hσ with rfl | rfl <;> rcases hτ with rfl | rfl
  · exact ⟨q, r, fun R => by ring, fun R => by ring⟩
  · exact ⟨q + r, -r, fun R => by simp only [centreX]; push_cast; ring, fun R => by simp only [centreY]; push_cast; ring⟩
  · exact ⟨-q - r, r, fun R => by simp only [centreX]; push_cast; ring, fun R => by simp only [centreY]; ring⟩
  · exact ⟨-q, -r, fun R => by simp only [centreX]; push_cast; ring, fun R => by simp only [centreY]; push_cast; ring⟩

/-- there is glass between the capillaries, of radius `rad`, of an optic with radius `R` (at one height) -/
def Apart (n_cap : Int) (R rad : ℝ) : Prop := n_cap ≤ 3 ∨ rad * (2 + 1 / 10 ^ 18) < R / ((nShells (α := ℝ) n_cap : ℝ) + 1)

theorem capillary_flip (hσ : Sign σ) (hτ : Sign τ) {D : Descr ℝ} (g : Grid D.prof) (hn : 1 ≤ D.n_cap) {c : V3 ℝ} (h0 : 0 ≤ c.z) (h1 : c.z ≤ D.prof.z D.prof.nmax) {R rad : ℝ}
    (hR : ValueAt D.prof D.prof.ext c.z R) (hrad : ValueAt D.prof D.prof.cap c.z rad) (hpos : 0 < R) (ha : Apart D.n_cap R rad) {qr : Int × Int} (hq : launchCap D c = some qr)
    (hw : startsInWall D qr c = false) :
    ∃ qr', launchCap D (flip σ τ c) = some qr' ∧ startsInWall D qr' (flip σ τ c) = false ∧ (∀ i, axX D qr' i = σ * axX D qr i) ∧ ∀ i, axY D qr' i = τ * axY D qr i := by
  have hR' : launchExt D.prof c.z = R := (launchExt_value g h0 h1).unique g hR
  have hz : (flip σ τ c).z = c.z := rfl
  have hgl : ¬ InGlass D.n_cap R rad c := fun h => by rw [(startsInWall_iff g hn h0 h1 hR hrad hq).mpr h] at hw; cases hw
  have wall : ∀ qr', launchCap D (flip σ τ c) = some qr' → ¬ InGlass D.n_cap R rad (flip σ τ c) → startsInWall D qr' (flip σ τ c) = false := by
    intro qr' h' hg
    have := (startsInWall_iff (c := flip σ τ c) g hn h0 h1 hR hrad h').not.mpr hg
    simpa using this
  have hrr : (flip σ τ c).x ^ 2 + (flip σ τ c).y ^ 2 = c.x ^ 2 + c.y ^ 2 := by
    simp only [flip, mul_pow, show σ ^ 2 = 1 by rw [pow_two, hσ.sq], show τ ^ 2 = 1 by rw [pow_two, hτ.sq], one_mul]
  rcases launchCap_some hq with ⟨hns, rfl⟩ | ⟨hns, hqr⟩
  · have h3 : D.n_cap ≤ 3 := (nShells_zero_iff D.n_cap hn).mp hns
    have hq' : launchCap D (flip σ τ c) = some (0, 0) := by
      rw [← hq]
      unfold launchCap
      have : (flip σ τ c).x *. (flip σ τ c).x +. (flip σ τ c).y *. (flip σ τ c).y = c.x *. c.x +. c.y *. c.y := by
        simp only [real_mul, real_add, ← pow_two, hrr]
      simp only [hns, if_true, hz, this]
    refine ⟨(0, 0), hq', wall _ hq' ?_, fun i => ?_, fun i => ?_⟩
    · unfold InGlass at hgl ⊢
      rw [if_pos h3] at hgl ⊢
      rwa [hrr]
    · rw [axX_eq D hn]; simp [centreX]
    · rw [axY_eq D hn]; simp [centreY]
  · have h3 : ¬ D.n_cap ≤ 3 := fun h => hns ((nShells_zero_iff D.n_cap hn).mpr h)
    have hN : 0 ≤ nShells (α := ℝ) D.n_cap := ((nShells_iff D.n_cap hn _).mp rfl).1
    have hgap := ha.resolve_left h3
    unfold InGlass at hgl
    rw [if_neg h3] at hgl
    rw [hR'] at hqr
    simp only [← hqr, not_lt] at hgl
    have hrad0 : 0 ≤ rad := le_trans (Real.sqrt_nonneg _) hgl
    have hd : dist2Centre (nShells (α := ℝ) D.n_cap) R c.x c.y qr.1 qr.2 ≤ rad ^ 2 := (Real.sqrt_le_left hrad0).mp hgl
    obtain ⟨q', r', hx, hy⟩ := lattice_flip hσ hτ (nShells (α := ℝ) D.n_cap) qr.1 qr.2
    have hdd : dist2Centre (nShells (α := ℝ) D.n_cap) R (flip σ τ c).x (flip σ τ c).y q' r' = dist2Centre (nShells (α := ℝ) D.n_cap) R c.x c.y qr.1 qr.2 := by
      simp only [dist2Centre, hx, hy, flip, ← mul_sub, mul_pow, show σ ^ 2 = 1 by rw [pow_two, hσ.sq], show τ ^ 2 = 1 by rw [pow_two, hτ.sq], one_mul]
    have hf := Mean.bore_found _ hN R rad (flip σ τ c).x (flip σ τ c).y hpos hrad0 hgap q' r' (by rw [hdd]; exact hd)
    have hq' : launchCap D (flip σ τ c) = some (q', r') := by
      unfold launchCap at hq ⊢
      have hb : withinPcBoundary (launchExt D.prof c.z) (flip σ τ c).x (flip σ τ c).y = withinPcBoundary (launchExt D.prof c.z) c.x c.y := within_flip hσ hτ _ _ _
      simp only [hns, if_false, hz, hb] at hq ⊢
      split_ifs at hq ⊢
      rw [hR', hf]
    refine ⟨(q', r'), hq', wall _ hq' ?_, fun i => ?_, fun i => ?_⟩
    · unfold InGlass
      rw [if_neg h3]
      simp only [hf, hdd, not_lt]
      exact hgl
    · rw [axX_eq D hn, axX_eq D hn, hx]; ring
    · rw [axY_eq D hn, axY_eq D hn, hy]; ring

/-- the mirror image of a position in the optic is in the optic, the mirror image of one in glass in glass -/
theorem outside_flip (hσ : Sign σ) (hτ : Sign τ) (D : Descr ℝ) (c : V3 ℝ) : launchCap D (flip σ τ c) = none ↔ launchCap D c = none := by
  have hz : (flip σ τ c).z = c.z := rfl
  have hrr : (flip σ τ c).x *. (flip σ τ c).x +. (flip σ τ c).y *. (flip σ τ c).y = c.x *. c.x +. c.y *. c.y := by
    simp only [flip, real_mul, real_add, prod_flip hσ, prod_flip hτ]
  have hb : withinPcBoundary (launchExt D.prof c.z) (flip σ τ c).x (flip σ τ c).y = withinPcBoundary (launchExt D.prof c.z) c.x c.y := within_flip hσ hτ _ _ _
  unfold launchCap
  simp only [hz, hrr, hb]
  split_ifs <;> simp

/-! ## Launching -/

theorem launch_in {lib : Xray ℝ} {D : Descr ℝ} {leak : Bool} {fuel k : Nat} {P : Photon ℝ} {es : List ℝ} {wptr : Bool} {o : WOut ℝ} {P' : Option (Photon ℝ)} {qr : Int × Int}
    (hq : launchCap D P.startC = some qr) (hw : startsInWall D qr P.startC = false) (h : launch lib (some D) leak fuel k (some P) (some es) wptr = .ok (1, o, P')) :
    ∃ x, traceLoop (trace D leak fuel k (axX D qr) (axY D qr)) (D.prof.nmax + 1) 0 (segIdFrom D.prof.z 0 P.startC.z (D.prof.nmax + 1)) (launchInit lib D es P) = .ok x ∧
      P' = some (finish x.2.2) ∧ ¬ Lost x.1 := by
  unfold launch at h
  simp only at h
  split_ifs at h with hbad
  · cases h
  · unfold launchBody at h
    have hs : (launchInit lib D es P).startC = P.startC := rfl
    simp only [hs, hq, hw, Bool.false_eq_true, if_false] at h
    unfold launchInside at h
    simp only [hs] at h
    generalize traceLoop (trace D leak fuel k (axX D qr) (axY D qr)) (D.prof.nmax + 1) 0 (segIdFrom D.prof.z 0 P.startC.z (D.prof.nmax + 1)) (launchInit lib D es P) = t at h ⊢
    cases t with
    | ub => rw [Out.bind_ub, Out.bind_ub] at h; cases h
    | fuel => rw [Out.bind_fuel, Out.bind_fuel] at h; cases h
    | ok x =>
      simp only [Out.bind_ok] at h
      injection h with h
      simp only [Prod.mk.injEq] at h
      obtain ⟨hc, -, hP⟩ := h
      refine ⟨x, rfl, hP.symm, ?_⟩
      unfold Lost
      rintro (h | h | h) <;> rw [h] at hc <;> simp at hc

/-- **C103.**  Two photons start from positions and in directions that are mirror images of one another in the planes x = 0 and (or) y = 0 (`σ`, `τ`; the same ones for `σ = τ = 1`),
in one and the same geometry, not in glass, and both get through (return value 1).  Then they come out at positions and in directions that are mirror images, after as many
reflections, and along equally long ways – whatever their energies, polarisations, the composition, density and roughness of the glass, and whether leaks are calculated.
(`d_travel`, which a launch does not reset, may differ beforehand.) -/
theorem ways_are_geometric (lib lib' : Xray ℝ) (D D' : Descr ℝ) (hp : D'.prof = D.prof) (hn : D'.n_cap = D.n_cap) (g : Grid D.prof) (h1 : 1 ≤ D.n_cap) (leak leak' : Bool)
    (fuel fuel' k k' : Nat) (P Q : Photon ℝ) (es es' : List ℝ) {σ τ : ℝ} (hσ : Sign σ) (hτ : Sign τ) (hC : Q.startC = flip σ τ P.startC) (hD : Q.startD = flip σ τ P.startD)
    (z0 : 0 ≤ P.startC.z) (z1 : P.startC.z ≤ D.prof.z D.prof.nmax) {R rad : ℝ} (hR : ValueAt D.prof D.prof.ext P.startC.z R) (hrad : ValueAt D.prof D.prof.cap P.startC.z rad)
    (hpos : 0 < R) (ha : Apart D.n_cap R rad) (hg : ¬ InGlass D.n_cap R rad P.startC) (w w' : WOut ℝ) (P' Q' : Photon ℝ)
    (h : launch lib (some D) leak fuel k (some P) (some es) true = .ok (1, w, some P'))
    (h' : launch lib' (some D') leak' fuel' k' (some Q) (some es') true = .ok (1, w', some Q')) :
    Q'.exitC = flip σ τ P'.exitC ∧ Q'.exitD = flip σ τ P'.exitD ∧ Q'.i_refl = P'.i_refl ∧ Q'.d_travel - Q.d_travel = P'.d_travel - P.d_travel := by
  cases hq : launchCap D P.startC with
  | none =>
    exfalso
    unfold launch at h
    simp only at h
    split_ifs at h with hbad
    · cases h
    · unfold launchBody at h
      have hs : (launchInit lib D es P).startC = P.startC := rfl
      simp only [hs, hq, Out.bind_ok] at h
      cases h
  | some qr =>
    have hw : startsInWall D qr P.startC = false := by
      have := (startsInWall_iff g h1 z0 z1 hR hrad hq).not.mpr hg
      simpa using this
    obtain ⟨qr', hq', hw', hx, hy⟩ := capillary_flip hσ hτ g h1 z0 z1 hR hrad hpos ha hq hw
    have e1 : launchCap D' Q.startC = launchCap D Q.startC := by unfold launchCap; rw [hp, hn]
    have e2 : startsInWall D' qr' Q.startC = startsInWall D qr' Q.startC := by unfold startsInWall axX axY; rw [hp, hn]
    have e3 : axX D' qr' = axX D qr' := by funext i; unfold axX; rw [hp, hn]
    have e4 : axY D' qr' = axY D qr' := by funext i; unfold axY; rw [hp, hn]
    obtain ⟨x, tx, px, lx⟩ := launch_in hq hw h
    obtain ⟨y, ty, py, ly⟩ := launch_in (by rw [e1, hC]; exact hq') (by rw [e2, hC]; exact hw') h'
    rw [e3, e4, hp, hC, show (flip σ τ P.startC).z = P.startC.z from rfl] at ty
    have w0 : Way σ τ (Q.d_travel - P.d_travel) (launchInit lib D es P) (launchInit lib' D' es' Q) := by
      refine ⟨hC, ?_, rfl, ?_⟩
      · simp only [launchInit, hD, vnorm_flip hσ hτ]
      · show Q.d_travel = P.d_travel + (Q.d_travel - P.d_travel)
        ring
    have wf := loop_way hσ hτ hp hn hx hy _ w0 tx ty lx ly
    injection px with px
    injection py with py
    subst px py
    refine ⟨wf.exitC, wf.exitD, wf.i_refl, ?_⟩
    have := wf.d_travel
    show y.2.2.d_travel - Q.d_travel = x.2.2.d_travel - P.d_travel
    rw [this]
    ring

/-- … hence the same photon launched with other energies, another polarisation or glass goes the same way. -/
theorem way_of_launch (lib lib' : Xray ℝ) (D D' : Descr ℝ) (hp : D'.prof = D.prof) (hn : D'.n_cap = D.n_cap) (g : Grid D.prof) (h1 : 1 ≤ D.n_cap) (leak leak' : Bool)
    (fuel fuel' k k' : Nat) (P Q : Photon ℝ) (es es' : List ℝ) (hC : Q.startC = P.startC) (hD : Q.startD = P.startD)
    (z0 : 0 ≤ P.startC.z) (z1 : P.startC.z ≤ D.prof.z D.prof.nmax) {R rad : ℝ} (hR : ValueAt D.prof D.prof.ext P.startC.z R) (hrad : ValueAt D.prof D.prof.cap P.startC.z rad)
    (hg : ¬ InGlass D.n_cap R rad P.startC) (w w' : WOut ℝ) (P' Q' : Photon ℝ)
    (h : launch lib (some D) leak fuel k (some P) (some es) true = .ok (1, w, some P'))
    (h' : launch lib' (some D') leak' fuel' k' (some Q) (some es') true = .ok (1, w', some Q')) :
    Q'.exitC = P'.exitC ∧ Q'.exitD = P'.exitD ∧ Q'.i_refl = P'.i_refl ∧ Q'.d_travel - Q.d_travel = P'.d_travel - P.d_travel := by
  have idf : ∀ v : V3 ℝ, flip 1 1 v = v := by intro v; simp [flip]
  have s1 : Sign 1 := Or.inl rfl
  cases hq : launchCap D P.startC with
  | none =>
    exfalso
    unfold launch at h
    simp only at h
    split_ifs at h with hbad
    · cases h
    · unfold launchBody at h
      have hs : (launchInit lib D es P).startC = P.startC := rfl
      simp only [hs, hq, Out.bind_ok] at h
      cases h
  | some qr =>
    have hw : startsInWall D qr P.startC = false := by
      have := (startsInWall_iff g h1 z0 z1 hR hrad hq).not.mpr hg
      simpa using this
    have e1 : launchCap D' Q.startC = launchCap D Q.startC := by unfold launchCap; rw [hp, hn]
    have e2 : startsInWall D' qr Q.startC = startsInWall D qr Q.startC := by unfold startsInWall axX axY; rw [hp, hn]
    have e3 : axX D' qr = axX D qr := by funext i; unfold axX; rw [hp, hn]
    have e4 : axY D' qr = axY D qr := by funext i; unfold axY; rw [hp, hn]
    obtain ⟨x, tx, px, lx⟩ := launch_in hq hw h
    obtain ⟨y, ty, py, ly⟩ := launch_in (by rw [e1, hC]; exact hq) (by rw [e2, hC]; exact hw) h'
    rw [e3, e4, hp, hC] at ty
    have w0 : Way 1 1 (Q.d_travel - P.d_travel) (launchInit lib D es P) (launchInit lib' D' es' Q) := by
      refine ⟨by rw [idf]; exact hC, ?_, rfl, ?_⟩
      · simp only [launchInit, hD, idf]
      · show Q.d_travel = P.d_travel + (Q.d_travel - P.d_travel)
        ring
    have wf := loop_way s1 s1 hp hn (fun i => (one_mul _).symm) (fun i => (one_mul _).symm) _ w0 tx ty lx ly
    injection px with px
    injection py with py
    subst px py
    have a := wf.exitC
    have b := wf.exitD
    rw [idf] at a b
    refine ⟨a, b, wf.i_refl, ?_⟩
    have := wf.d_travel
    show y.2.2.d_travel - Q.d_travel = x.2.2.d_travel - P.d_travel
    rw [this]
    ring

/-! ## Weights -/

theorem trace_flip_any (hσ : Sign σ) (hτ : Sign τ) {D : Descr ℝ} {capx capy capx' capy' : Nat → ℝ} (hx : ∀ i, capx' i = σ * capx i) (hy : ∀ i, capy' i = τ * capy i)
    (fuel k ix : Nat) {P Q : Photon ℝ} (h : Image σ τ P Q) :
    Same3 σ τ (trace D false fuel k capx capy ix P) (trace D false fuel k capx' capy' ix Q) := by
  have h0 : Image σ τ { P with exitD := vnorm P.exitD, startD := vnorm P.startD } { Q with exitD := vnorm Q.exitD, startD := vnorm Q.startD } :=
    ⟨h.startC, by simp only [h.startD, vnorm_flip hσ hτ], h.exitC, by simp only [h.exitD, vnorm_flip hσ hτ], h.exitE, h.i_refl, h.d_travel, h.chans, h.coef⟩
  have e0 : (lit 0 : ℝ) = 0 := by simp
  have hs := search_flip_any hσ hτ (D := D) rfl rfl hx hy h0.exitC h0.exitD (D.prof.nmax - ix) ix P.exitC ⟨0, 0, 0⟩
  rw [axis_flip, ← h.exitC] at hs
  unfold trace capilTrace
  simp only [e0] at hs ⊢
  generalize ({ P with exitD := vnorm P.exitD, startD := vnorm P.startD } : Photon ℝ) = P0 at h0 hs ⊢
  generalize ({ Q with exitD := vnorm Q.exitD, startD := vnorm Q.startD } : Photon ℝ) = Q0 at h0 hs ⊢
  rw [hs]
  cases traceSearch D capx capy P0 (D.prof.nmax - ix) ix P.exitC ⟨0, 0, 0⟩ with
  | ret c => exact .ok _ _ h0
  | miss => exact .ok _ _ h0
  | hit i v n a =>
    simp only [flipHit]
    have h1 : Image σ τ { P0 with d_travel := P0.d_travel +. dist3 v P0.exitC, exitC := v } { Q0 with d_travel := Q0.d_travel +. dist3 (flip σ τ v) Q0.exitC, exitC := flip σ τ v } :=
      ⟨h0.startC, h0.startD, rfl, h0.exitD, h0.exitE, h0.i_refl, by simp only [h0.d_travel, h0.exitC, dist3_flip hσ hτ], h0.chans, h0.coef⟩
    unfold traceHit
    have hrad : (flip σ τ v).x *. (flip σ τ v).x +. (flip σ τ v).y *. (flip σ τ v).y = v.x *. v.x +. v.y *. v.y := by
      simp only [flip, real_mul, real_add, prod_flip hσ, prod_flip hτ]
    have hz : (flip σ τ v).z = v.z := rfl
    have hw : ∀ R : ℝ, withinPcBoundary R (flip σ τ v).x (flip σ τ v).y = withinPcBoundary R v.x v.y := fun R => within_flip hσ hτ R v.x v.y
    simp only [hrad, hz, hw]
    generalize ({ P0 with d_travel := P0.d_travel +. dist3 v P0.exitC, exitC := v } : Photon ℝ) = P1 at h1 ⊢
    generalize ({ Q0 with d_travel := Q0.d_travel +. dist3 (flip σ τ v) Q0.exitC, exitC := flip σ τ v } : Photon ℝ) = Q1 at h1 ⊢
    split_ifs
    · exact .ok _ _ h1
    · exact .ub
    · exact .ok _ _ h1
    · exact .ok _ _ h1
    · have hr := reflect_flip hσ hτ D fuel k n h1
      generalize reflect D false fuel k n P1 = x at hr
      generalize reflect D false fuel k (flip σ τ n) Q1 = y at hr
      cases hr with
      | ub => exact .ub
      | fuel => exact .fuel
      | @ok c P' Q' hi =>
        simp only [Out.bind_ok, afterReflect]
        split_ifs
        · exact .ok _ _ ⟨hi.startC, hi.startD, hi.exitC, by simp only [hi.exitD, reflectDir_flip hσ hτ], hi.exitE, by simp only [hi.i_refl], hi.d_travel, hi.chans, hi.coef⟩
        · exact .ok _ _ hi
        · exact .ok _ _ hi

theorem loop_flip_any (hσ : Sign σ) (hτ : Sign τ) {D : Descr ℝ} {capx capy capx' capy' : Nat → ℝ} (hx : ∀ i, capx' i = σ * capx i) (hy : ∀ i, capy' i = τ * capy i)
    (fuel k : Nat) : ∀ (M : Nat) (c : Int) (ix : Nat) {P Q : Photon ℝ}, Image σ τ P Q →
    Same3 σ τ (traceLoop (trace D false fuel k capx capy) M c ix P) (traceLoop (trace D false fuel k capx' capy') M c ix Q) := by
  intro M
  induction M with
  | zero => intro c ix P Q h; exact .ok _ _ h
  | succ M ih =>
    intro c ix P Q h
    unfold traceLoop
    have ht := trace_flip_any hσ hτ hx hy fuel k ix h (D := D)
    generalize trace D false fuel k capx capy ix P = x at ht
    generalize trace D false fuel k capx' capy' ix Q = y at ht
    cases ht with
    | ub => exact .ub
    | fuel => exact .fuel
    | @ok c i P' Q' hi =>
      simp only [Out.bind_ok]
      split_ifs
      · exact .ok _ _ hi
      · exact ih _ _ hi

/-- **C103** (weights; partial: polarisation along an axis, no leak calculation).  Launching the mirror image of a photon polarised along an axis in any optic whose capillaries do not
touch where it starts: same return value, same weights, same number of reflections and length of the way; it ends in the mirror image of where, and flying in the mirror image of the
direction in which, the photon itself ends. -/
theorem polycapillary_mirror_partial (lib : Xray ℝ) (D : Descr ℝ) (g : Grid D.prof) (h1 : 1 ≤ D.n_cap) (fuel k : Nat) (P : Photon ℝ) (es : List ℝ) {σ τ : ℝ} (hσ : Sign σ) (hτ : Sign τ)
    (hE : Axial P.exitE) (z0 : 0 ≤ P.startC.z) (z1 : P.startC.z ≤ D.prof.z D.prof.nmax) {R rad : ℝ} (hR : ValueAt D.prof D.prof.ext P.startC.z R)
    (hrad : ValueAt D.prof D.prof.cap P.startC.z rad) (hpos : 0 < R) (ha : Apart D.n_cap R rad) (c : Int) (w : WOut ℝ) (P' : Photon ℝ)
    (h : launch lib (some D) false fuel k (some P) (some es) true = .ok (c, w, some P')) :
    ∃ Q', launch lib (some D) false fuel k (some (mirrored σ τ P)) (some es) true = .ok (c, w, some Q') ∧
      Q'.startC = flip σ τ P'.startC ∧ Q'.startD = flip σ τ P'.startD ∧ Q'.exitC = flip σ τ P'.exitC ∧ Q'.exitD = flip σ τ P'.exitD ∧
      (Q'.exitE = P'.exitE ∨ Q'.exitE = ⟨-P'.exitE.x, -P'.exitE.y, -P'.exitE.z⟩) ∧ Q'.i_refl = P'.i_refl ∧ Q'.d_travel = P'.d_travel := by
  have fin : ∀ {c : Int} {w : WOut ℝ} {P' Q' : Photon ℝ}, Image σ τ P' Q' → ∃ Q'' : Photon ℝ, (Out.ok (c, w, some Q') : Out (Int × WOut ℝ × Option (Photon ℝ))) = .ok (c, w, some Q'') ∧
      Q''.startC = flip σ τ P'.startC ∧ Q''.startD = flip σ τ P'.startD ∧ Q''.exitC = flip σ τ P'.exitC ∧ Q''.exitD = flip σ τ P'.exitD ∧
      (Q''.exitE = P'.exitE ∨ Q''.exitE = ⟨-P'.exitE.x, -P'.exitE.y, -P'.exitE.z⟩) ∧ Q''.i_refl = P'.i_refl ∧ Q''.d_travel = P'.d_travel :=
    fun {c w P' Q'} i => ⟨Q', rfl, i.startC, i.startD, i.exitC, i.exitD, i.exitE.same, i.i_refl, i.d_travel⟩
  have hI0 : Image σ τ P (mirrored σ τ P) := ⟨rfl, rfl, rfl, rfl, axial_flip hσ hτ hE, rfl, rfl, rfl, rfl⟩
  have hid : flip σ τ (flip σ τ P.startC) = P.startC := by
    simp only [flip, ← mul_assoc, hσ.sq, hτ.sq, one_mul]
  unfold launch at h ⊢
  simp only at h ⊢
  split_ifs at h ⊢ with hbad
  · injection h with h
    simp only [Prod.mk.injEq, Option.some.injEq] at h
    obtain ⟨rfl, rfl, rfl⟩ := h
    exact fin hI0
  · have hI : Image σ τ (launchInit lib D es P) (launchInit lib D es (mirrored σ τ P)) := by
      refine ⟨rfl, ?_, rfl, ?_, axial_flip hσ hτ hE, rfl, rfl, rfl, rfl⟩
      · simp only [launchInit, mirrored, vnorm_flip hσ hτ]
      · simp only [launchInit, mirrored, vnorm_flip hσ hτ]
    unfold launchBody at h ⊢
    have s1 : (launchInit lib D es P).startC = P.startC := rfl
    have s2 : (launchInit lib D es (mirrored σ τ P)).startC = flip σ τ P.startC := rfl
    simp only [s1, s2] at h ⊢
    cases hcap : launchCap D P.startC with
    | none =>
      have hcap' : launchCap D (flip σ τ P.startC) = none := (outside_flip hσ hτ D _).mpr hcap
      simp only [hcap, hcap', Out.bind_ok] at h ⊢
      injection h with h
      simp only [Prod.mk.injEq, Option.some.injEq] at h
      obtain ⟨rfl, rfl, rfl⟩ := h
      exact fin ⟨hI.startC, hI.startD, hI.exitC, hI.exitD, hI.exitE, hI.i_refl, hI.d_travel, rfl, rfl⟩
    | some qr =>
      cases hw : startsInWall D qr P.startC with
      | true =>
        obtain ⟨qr', hcap'⟩ : ∃ qr', launchCap D (flip σ τ P.startC) = some qr' := by
          cases hc' : launchCap D (flip σ τ P.startC) with
          | none => rw [(outside_flip hσ hτ D _).mp hc'] at hcap; cases hcap
          | some qr' => exact ⟨qr', rfl⟩
        have hw' : startsInWall D qr' (flip σ τ P.startC) = true := by
          by_contra hne
          obtain ⟨q2, a, b, -⟩ := capillary_flip hσ hτ (c := flip σ τ P.startC) g h1 z0 z1 hR hrad hpos ha hcap' (by simpa using hne)
          rw [hid, hcap] at a
          injection a with a
          subst a
          rw [hid, hw] at b
          cases b
        simp only [hcap, hcap', hw, hw', Bool.false_and, Bool.false_eq_true, if_false, if_true, Out.bind_ok] at h ⊢
        injection h with h
        simp only [Prod.mk.injEq, Option.some.injEq] at h
        obtain ⟨rfl, rfl, rfl⟩ := h
        exact fin ⟨hI.startC, hI.startD, hI.exitC, hI.exitD, hI.exitE, hI.i_refl, hI.d_travel, rfl, rfl⟩
      | false =>
        obtain ⟨qr', hcap', hw', hx, hy⟩ := capillary_flip hσ hτ g h1 z0 z1 hR hrad hpos ha hcap hw
        simp only [hcap, hcap', hw, hw', Bool.false_eq_true, if_false] at h ⊢
        unfold launchInside at h ⊢
        simp only [s1, s2, show (flip σ τ P.startC).z = P.startC.z from rfl] at h ⊢
        have hl := loop_flip_any hσ hτ hx hy fuel k (D.prof.nmax + 1) 0 (segIdFrom D.prof.z 0 P.startC.z (D.prof.nmax + 1)) hI (D := D)
        generalize traceLoop (trace D false fuel k (axX D qr) (axY D qr)) (D.prof.nmax + 1) 0 (segIdFrom D.prof.z 0 P.startC.z (D.prof.nmax + 1)) (launchInit lib D es P) = x at h hl
        generalize traceLoop (trace D false fuel k (axX D qr') (axY D qr')) (D.prof.nmax + 1) 0 (segIdFrom D.prof.z 0 P.startC.z (D.prof.nmax + 1)) (launchInit lib D es (mirrored σ τ P)) = y at hl ⊢
        cases hl with
        | ub => rw [Out.bind_ub, Out.bind_ub] at h; cases h
        | fuel => rw [Out.bind_fuel, Out.bind_fuel] at h; cases h
        | @ok c' i P1 Q1 hi =>
          simp only [Out.bind_ok] at h ⊢
          injection h with h
          simp only [Prod.mk.injEq, Option.some.injEq] at h
          obtain ⟨rfl, rfl, rfl⟩ := h
          rw [hi.chans]
          exact fin ⟨hi.startC, hi.startD, hi.exitC, hi.exitD, hi.exitE, hi.i_refl, hi.d_travel, rfl, rfl⟩

/-! ## Examples -/

/-- a photon in a capillary off the axis of a polycapillary with seven, or its mirror image; slightly tilted, meeting no wall -/
theorem hex_launch {s : ℝ} (hs : Sign s) (D : Descr ℝ) (hp : D.prof = exHexD.prof) (hn : D.n_cap = exHexD.n_cap) (lib : Xray ℝ) (leak : Bool) (e : ℝ) (he : 1 ≤ e ∧ e ≤ 100) (E : V3 ℝ) :
    ∃ P', launch lib (some D) leak 0 1 (some { exP ⟨s * (1/2), 0, 0⟩ ⟨s * (1/100), 0, 1⟩ 0 with exitE := E }) (some [e]) true = .ok (1, .filled [1], some P') := by
  have hss := hs.sq
  have hN : nShells (α := ℝ) D.n_cap = 1 := by rw [hn]; exact exHexD_shells
  have h7 : D.n_cap = 7 := hn
  have z_ : ∀ i, D.prof.z i = i := fun i => by rw [hp]; rfl
  have c_ : ∀ i, D.prof.cap i = 1/10 := fun i => by rw [hp]; rfl
  have x_ : ∀ i, D.prof.ext i = 1 := fun i => by rw [hp]; rfl
  have nm : D.prof.nmax = 2 := by rw [hp]; rfl
  have g : Grid D.prof := by rw [hp]; exact Mean.exHex_setup.grid
  have hex : ∀ x : ℝ, x ^ 2 ≤ 1/2 → InHex 1 x 0 := by
    intro x hx
    refine ((boundary_one_iff 1 x 0).mp ?_).2
    refine boundary_contains_disc 1 x 0 (by norm_num) ?_
    linarith
  obtain ⟨q0, hq0⟩ : ∃ q0 : ℤ, (q0 : ℝ) = s := by
    rcases hs with rfl | rfl
    · exact ⟨1, by norm_num⟩
    · exact ⟨-1, by norm_num⟩
  have hdist : dist2Centre 1 1 (s * (1/2)) 0 q0 0 = 0 := by
    simp only [dist2Centre, centreX, centreY, hq0]
    push_cast
    ring
  have hround : hexRound 1 (1:ℝ) (s * (1/2)) 0 = (q0, 0) :=
    Mean.bore_found 1 (by norm_num) 1 (1/10) (s * (1/2)) 0 (by norm_num) (by norm_num) (by norm_num) q0 0 (by rw [hdist]; norm_num)
  have vR : ValueAt D.prof D.prof.ext 0 1 := ⟨0, by omega, by rw [z_]; norm_num, by rw [z_]; norm_num, by simp only [x_, linAt]; norm_num⟩
  have vr : ValueAt D.prof D.prof.cap 0 (1/10) := ⟨0, by omega, by rw [z_]; norm_num, by rw [z_]; norm_num, by simp only [c_, linAt]; norm_num⟩
  have h3 : ¬ D.n_cap ≤ 3 := by rw [h7]; norm_num
  obtain ⟨P', h, -⟩ := launch_clear_transmitted_partial lib D (by omega) g ⟨fun i _ => by rw [c_]; norm_num, fun i _ => by rw [x_]; norm_num⟩ leak 0 1
    { exP ⟨s * (1/2), 0, 0⟩ ⟨s * (1/100), 0, 1⟩ 0 with exitE := E } [e] (by simp) (by simpa using he) (le_refl _) (by show (0:ℝ) ≤ D.prof.z D.prof.nmax; rw [z_]; positivity)
    (by show (0:ℝ) < 1; norm_num) 1 (1/10) vR vr (by
      unfold Outside
      rw [if_neg h3, not_not]
      exact hex (s * (1/2)) (by nlinarith)) (by
      unfold InGlass
      rw [if_neg h3]
      show ¬ (1/10:ℝ) < Real.sqrt (dist2Centre (nShells (α := ℝ) D.n_cap) 1 (s * (1/2)) 0 _ _)
      rw [hN]
      show ¬ (1/10:ℝ) < Real.sqrt (dist2Centre 1 1 (s * (1/2)) 0 (hexRound 1 (1:ℝ) (s * (1/2)) 0).1 (hexRound 1 (1:ℝ) (s * (1/2)) 0).2)
      rw [hround, hdist]
      norm_num) (by
      intro qr hq
      have hz : launchExt D.prof (0:ℝ) = 1 := (launchExt_value g (le_refl _) (by rw [z_]; positivity)).unique g vR
      have hqr : qr = (q0, 0) := by
        rcases launchCap_some hq with ⟨h, -⟩ | ⟨-, h⟩
        · rw [hN] at h; cases h
        · rw [h, hN]
          show hexRound 1 (launchExt D.prof 0) (s * (1/2)) 0 = _
          rw [hz, hround]
      subst hqr
      have ax : ∀ i, axX D (q0, 0) i = s * (1/2) := by
        intro i
        rw [axX_eq D (by omega), hN, x_]
        simp only [centreX, hq0]
        push_cast
        ring
      have ay : ∀ i, axY D (q0, 0) i = 0 := by
        intro i
        rw [axY_eq D (by omega), hN, x_]
        simp [centreY]
      refine ⟨fun i _ => ?_, ?_, ?_, ?_⟩
      · rw [x_, ax, ay]
        exact hex _ (by nlinarith)
      · intro i _ _
        simp only [genCoeff, axisPt, ax, ay, c_, sub_self, zero_div, sub_zero, exP]
        norm_num
        rcases hs with rfl | rfl <;> norm_num
      · intro i _ hi z hz0 hz1 _
        rw [nm] at hi
        rw [z_] at hz0 hz1
        have hzz : 0 ≤ z ∧ z ≤ 2 := by
          refine ⟨le_trans (by positivity) hz0, le_trans hz1 ?_⟩
          exact_mod_cast hi
        simp only [OnWall, axisPt, ax, ay, c_, linAt, lineAt, sub_self, mul_zero, zero_mul, add_zero, sub_zero, exP, div_one, z_]
        intro h
        have : (z * (1/100)) ^ 2 = (1/10:ℝ) ^ 2 := by
          rw [← h]
          have : (s * (1/2) + z * (s * (1/100)) - s * (1/2)) ^ 2 = s * s * (z * (1/100)) ^ 2 := by ring
          rw [this, hss]
          ring
        nlinarith
      · intro i _ hi
        rw [nm] at hi
        simp only [x_, lineAt, exP, mul_zero, add_zero, sub_zero, div_one, z_]
        have hi' : (i : ℝ) ≤ 2 := by exact_mod_cast hi.le
        have hi0 : (0 : ℝ) ≤ i := by positivity
        refine hex _ ?_
        have : (s * (1/2) + (i:ℝ) * (s * (1/100))) ^ 2 = s * s * (1/2 + i * (1/100)) ^ 2 := by ring
        rw [this, hss]
        nlinarith) none
  refine ⟨P', ?_⟩
  rw [← launchE_value (e := none), h]
  rfl

theorem exHex_apart : Apart exHexD.n_cap 1 (1/10) := by
  refine Or.inr ?_
  rw [exHexD_shells]
  norm_num

theorem exHex_bore : ¬ InGlass exHexD.n_cap 1 (1/10) ⟨1 * (1/2), 0, 0⟩ := by
  have hdist : dist2Centre 1 1 (1 * (1/2)) 0 1 0 = 0 := by
    simp only [dist2Centre, centreX, centreY]
    push_cast
    ring
  have hround : hexRound 1 (1:ℝ) (1 * (1/2)) 0 = (1, 0) :=
    Mean.bore_found 1 (by norm_num) 1 (1/10) (1 * (1/2)) 0 (by norm_num) (by norm_num) (by norm_num) 1 0 (by rw [hdist]; norm_num)
  unfold InGlass
  rw [if_neg (show ¬ exHexD.n_cap ≤ 3 by norm_num [exHexD])]
  show ¬ (1/10:ℝ) < Real.sqrt (dist2Centre (nShells (α := ℝ) exHexD.n_cap) 1 (1 * (1/2)) 0 _ _)
  rw [exHexD_shells]
  show ¬ (1/10:ℝ) < Real.sqrt (dist2Centre 1 1 (1 * (1/2)) 0 (hexRound 1 (1:ℝ) (1 * (1/2)) 0).1 (hexRound 1 (1:ℝ) (1 * (1/2)) 0).2)
  rw [hround, hdist]
  norm_num

/-- the hypotheses of `ways_are_geometric` met in a polycapillary: other energy, polarisation, composition, roughness and leak setting -/
example (lib : Xray ℝ) (E E' : V3 ℝ) : ∃ P' Q' : Photon ℝ,
    launch exLib (some exHexD) false 0 1 (some { exP ⟨1 * (1/2), 0, 0⟩ ⟨1 * (1/100), 0, 1⟩ 0 with exitE := E }) (some [10]) true = .ok (1, .filled [1], some P') ∧
    launch lib (some { exHexD with iz := [82], sig_rough := 0 }) true 0 1 (some { exP ⟨-1 * (1/2), 0, 0⟩ ⟨-1 * (1/100), 0, 1⟩ 0 with exitE := E' }) (some [20]) true = .ok (1, .filled [1], some Q') ∧
    Q'.exitD = flip (-1) 1 P'.exitD := by
  obtain ⟨P', h⟩ := hex_launch (Or.inl rfl : Sign 1) exHexD rfl rfl exLib false 10 (by norm_num) E
  obtain ⟨Q', h'⟩ := hex_launch (Or.inr rfl : Sign (-1)) { exHexD with iz := [82], sig_rough := 0 } rfl rfl lib true 20 (by norm_num) E'
  refine ⟨P', Q', h, h', ?_⟩
  exact (ways_are_geometric exLib lib exHexD { exHexD with iz := [82], sig_rough := 0 } rfl rfl Mean.exHex_setup.grid (by norm_num [exHexD]) false true 0 0 1 1 _ _ [10] [20]
    (Or.inr rfl : Sign (-1)) (Or.inl rfl : Sign 1) (by simp [exP, flip]) (by simp [exP, flip]) (le_refl _) (by show (0:ℝ) ≤ exHexD.prof.z exHexD.prof.nmax; simp [exHexD])
    (R := 1) (rad := 1/10) ⟨0, by norm_num [exHexD], by simp [exHexD, exP], by simp [exHexD, exP], by simp [exHexD, linAt]⟩
    ⟨0, by norm_num [exHexD], by simp [exHexD, exP], by simp [exHexD, exP], by simp [exHexD, linAt]⟩ (by norm_num) exHex_apart exHex_bore _ _ P' Q' h h').2.1

/-- … and of `polycapillary_mirror_partial` -/
example : ∃ P' Q' : Photon ℝ,
    launch exLib (some exHexD) false 0 1 (some { exP ⟨1 * (1/2), 0, 0⟩ ⟨1 * (1/100), 0, 1⟩ 0 with exitE := ⟨0, 1, 0⟩ }) (some [10]) true = .ok (1, .filled [1], some P') ∧
    launch exLib (some exHexD) false 0 1 (some (mirrored (-1) 1 { exP ⟨1 * (1/2), 0, 0⟩ ⟨1 * (1/100), 0, 1⟩ 0 with exitE := ⟨0, 1, 0⟩ })) (some [10]) true = .ok (1, .filled [1], some Q') ∧
    Q'.exitC = flip (-1) 1 P'.exitC := by
  obtain ⟨P', h⟩ := hex_launch (Or.inl rfl : Sign 1) exHexD rfl rfl exLib false 10 (by norm_num) ⟨0, 1, 0⟩
  obtain ⟨Q', h', -, -, c, -⟩ := polycapillary_mirror_partial exLib exHexD Mean.exHex_setup.grid (by norm_num [exHexD]) 0 1 _ [10]
    (Or.inr rfl : Sign (-1)) (Or.inl rfl : Sign 1) (Or.inr (Or.inl ⟨rfl, rfl⟩)) (le_refl _) (by show (0:ℝ) ≤ exHexD.prof.z exHexD.prof.nmax; simp [exHexD])
    (R := 1) (rad := 1/10) ⟨0, by norm_num [exHexD], by simp [exHexD, exP], by simp [exHexD, exP], by simp [exHexD, linAt]⟩
    ⟨0, by norm_num [exHexD], by simp [exHexD, exP], by simp [exHexD, exP], by simp [exHexD, linAt]⟩ (by norm_num) exHex_apart 1 _ P' h
  exact ⟨P', Q', h, h', c⟩

open Bore Polycap.Tube Route in
/-- Two mirror images whose weights differ (C94) nevertheless go mirror images of the same way, with two reflections. -/
example : ∃ (w w' : WOut ℝ) (P' Q' : Photon ℝ),
    launch mLib (some (tD (3/4) 4 5)) false 0 1 (some (mPh 1 ⟨-(3/5), 4/5, 0⟩)) (some [10]) true = .ok (1, w, some P') ∧
    launch mLib (some (tD (3/4) 4 5)) false 0 1 (some (mirrored (-1) 1 (mPh 1 ⟨-(3/5), 4/5, 0⟩))) (some [10]) true = .ok (1, w', some Q') ∧
    w ≠ w' ∧ Q'.exitC = flip (-1) 1 P'.exitC ∧ Q'.exitD = flip (-1) 1 P'.exitD ∧ Q'.i_refl = P'.i_refl := by
  obtain ⟨w, w', P', Q', h, h', hlt⟩ := mirror_images_differ
  obtain ⟨a, b, c, -⟩ := ways_are_geometric mLib mLib (tD (3/4) 4 5) (tD (3/4) 4 5) rfl rfl (tGrid (by norm_num)) (by simp [tD]) false false 0 0 1 1 _ _ [10] [10]
    (Or.inr rfl : Sign (-1)) (Or.inl rfl : Sign 1) rfl rfl (by show (0:ℝ) ≤ 0; norm_num) (by show (0:ℝ) ≤ (tD (3/4) 4 5).prof.z (tD (3/4) 4 5).prof.nmax; simp [tD])
    (R := 5) (rad := 3/4) ⟨0, by norm_num [tD], by simp [tD, mPh, exP], by simp [tD, mPh, exP], by simp [tD, linAt]⟩
    ⟨0, by norm_num [tD], by simp [tD, mPh, exP], by simp [tD, mPh, exP], by simp [tD, linAt]⟩ (by norm_num) (Or.inl (by simp [tD])) (by
      unfold InGlass
      rw [if_pos (by simp [tD])]
      simp [mPh, exP]
      norm_num) _ _ P' Q' h h'
  refine ⟨_, _, P', Q', h, h', ?_, a, b, c⟩
  intro e
  injection e with e
  injection e with e
  exact absurd e hlt.ne

end Mirror
end Polycap
