import Verif.Props.Symmetry
import Verif.Props.Skew

/-!
# C106: a single capillary has no preferred direction

The wall of a monocapillary is a surface of revolution.  Photons whose starts are rotated about its axis, or mirrored in any plane through it, must therefore travel along rotated ways.
The code compares positions in a monocapillary with a hexagon at some places, which is not a surface of revolution; a photon found outside it is lost.
-/
namespace Polycap
open CNum
namespace Rotation
open EInd Polar Mirror

/-- a rotation about the axis of the optic, or a reflection in a plane through it: columns of its matrix -/
structure Turn where
  a : ℝ
  b : ℝ
  c : ℝ
  d : ℝ
  first : a ^ 2 + c ^ 2 = 1
  second : b ^ 2 + d ^ 2 = 1
  right_angle : a * b + c * d = 0

/-- the image of a point or direction -/
def turn (M : Turn) (v : V3 ℝ) : V3 ℝ := ⟨M.a * v.x + M.b * v.y, M.c * v.x + M.d * v.y, v.z⟩

/-- rotation by the angle `φ` -/
noncomputable def Turn.by (φ : ℝ) : Turn where
  a := Real.cos φ
  b := -Real.sin φ
  c := Real.sin φ
  d := Real.cos φ
  first := by rw [add_comm]; exact Real.sin_sq_add_cos_sq φ
  second := by rw [neg_sq]; exact Real.sin_sq_add_cos_sq φ
  right_angle := by ring

variable (M : Turn)

theorem plane (x y x' y' : ℝ) : (M.a * x + M.b * y) * (M.a * x' + M.b * y') + (M.c * x + M.d * y) * (M.c * x' + M.d * y') = x * x' + y * y' := by
  linear_combination x * x' * M.first + y * y' * M.second + (x * y' + y * x') * M.right_angle

theorem vnorm_turn (v : V3 ℝ) : vnorm (turn M v) = turn M (vnorm v) := by
  simp only [vnorm, turn, real_mul, real_add, real_sqrt, real_div, plane, V3.mk.injEq, and_true]
  constructor <;> ring

theorem scalar_turn (u v : V3 ℝ) : scalar (turn M u) (turn M v) = scalar u v := by
  simp only [scalar, turn, real_mul, real_add, plane]

theorem vsub_turn (u v : V3 ℝ) : vsub (turn M u) (turn M v) = turn M (vsub u v) := by
  simp only [vsub, turn, real_sub, V3.mk.injEq, and_true]
  constructor <;> ring

theorem dist3_turn (u v : V3 ℝ) : dist3 (turn M u) (turn M v) = dist3 u v := by
  simp only [dist3, vsub_turn, scalar_turn]

theorem atGrid_turn (p : Profile ℝ) (c d : V3 ℝ) (i : Nat) : atGrid p (turn M c) (turn M d) i = turn M (atGrid p c d i) := by
  simp only [atGrid, projXY, turn, real_mul, real_add, real_sub, real_div, V3.mk.injEq, and_true]
  constructor <;> ring

theorem axis_turn (z : ℝ) : turn M ⟨0, 0, z⟩ = ⟨0, 0, z⟩ := by simp [turn]

theorem radius_turn (v : V3 ℝ) : (turn M v).x *. (turn M v).x +. (turn M v).y *. (turn M v).y = v.x *. v.x +. v.y *. v.y := by
  simp only [turn, real_mul, real_add, plane]

theorem reflectDir_turn (d n : V3 ℝ) (s : ℝ) : reflectDir (turn M d) (turn M n) s = turn M (reflectDir d n s) := by
  unfold reflectDir
  rw [← vnorm_turn]
  congr 1
  simp only [turn, real_mul, real_sub, V3.mk.injEq, and_true]
  constructor <;> ring

/-- one segment of any capillary -/
theorem segment_turn (c0 c1 : V3 ℝ) (r0 r1 : ℝ) (p0 p1 d cur nrm : V3 ℝ) :
    segment (turn M c0) (turn M c1) r0 r1 (turn M p0) (turn M p1) (turn M d) (turn M cur) (turn M nrm) =
      ((segment c0 c1 r0 r1 p0 p1 d cur nrm).1, turn M (segment c0 c1 r0 r1 p0 p1 d cur nrm).2.1, turn M (segment c0 c1 r0 r1 p0 p1 d cur nrm).2.2) := by
  have e0 : (lit 0 : ℝ) = 0 := by simp
  have hrej : segRejects (turn M c0) (turn M c1) r0 r1 (turn M p0) (turn M p1) (turn M d) = segRejects c0 c1 r0 r1 p0 p1 d := rfl
  unfold segment
  simp only [hrej, vnorm_turn, vsub_turn, e0]
  generalize vnorm d = u
  generalize hcd : vsub c1 c0 = w
  have hA : segA (turn M c0) (turn M c1) r0 r1 (turn M u) (turn M w) = segA c0 c1 r0 r1 u w := by
    simp only [segA, segSlopes, segTaper, turn, real_mul, real_add, real_sub, real_div]
    have := plane M (u.x / u.z - w.x / w.z) (u.y / u.z - w.y / w.z) (u.x / u.z - w.x / w.z) (u.y / u.z - w.y / w.z)
    linear_combination this
  have hB : segB (turn M c0) (turn M c1) r0 r1 (turn M p0) (turn M u) (turn M w) = segB c0 c1 r0 r1 p0 u w := by
    simp only [segB, segSlopes, segTaper, turn, real_mul, real_add, real_sub, real_div, real_lit]
    have := plane M (p0.x - c0.x) (p0.y - c0.y) (u.x / u.z - w.x / w.z) (u.y / u.z - w.y / w.z)
    push_cast
    linear_combination 2 * this
  have hC : segC (turn M c0) r0 (turn M p0) = segC c0 r0 p0 := by
    simp only [segC, turn, real_mul, real_add, real_sub]
    have := plane M (p0.x - c0.x) (p0.y - c0.y) (p0.x - c0.x) (p0.y - c0.y)
    linear_combination this
  rw [hA, hB, hC]
  have z_f : ∀ v : V3 ℝ, (turn M v).z = v.z := fun _ => rfl
  simp only [z_f]
  have hz : turn M ⟨0, 0, 0⟩ = ⟨0, 0, 0⟩ := axis_turn M 0
  split_ifs
  · rfl
  · cases segSolve (segA c0 c1 r0 r1 u w) (segB c0 c1 r0 r1 p0 u w) (segC c0 r0 p0) p0.z c0.z c1.z cur.z with
    | inl code => simp only [hz]
    | inr z =>
      dsimp only
      have hv : (⟨(turn M p0).x +. (z -. p0.z) /. u.z *. (turn M u).x, (turn M p0).y +. (z -. p0.z) /. u.z *. (turn M u).y, z⟩ : V3 ℝ) =
          turn M ⟨p0.x +. (z -. p0.z) /. u.z *. u.x, p0.y +. (z -. p0.z) /. u.z *. u.y, z⟩ := by
        simp only [turn, real_mul, real_add, real_sub, real_div, V3.mk.injEq, and_true]
        constructor <;> ring
      rw [hv]
      split_ifs
      · simp only [hz]
      · simp only [hz]
      · simp only [hz]
      · refine Prod.ext rfl (Prod.ext rfl ?_)
        generalize (⟨p0.x +. (z -. p0.z) /. u.z *. u.x, p0.y +. (z -. p0.z) /. u.z *. u.y, z⟩ : V3 ℝ) = v
        simp only
        unfold segNormal
        simp only [vsub_turn, scalar_turn]
        have hfoot : ∀ f : ℝ, (⟨(turn M c0).x +. f *. (turn M w).x, (turn M c0).y +. f *. (turn M w).y, (turn M c0).z +. f *. (turn M w).z⟩ : V3 ℝ) =
            turn M ⟨c0.x +. f *. w.x, c0.y +. f *. w.y, c0.z +. f *. w.z⟩ := by
          intro f
          simp only [turn, real_mul, real_add, V3.mk.injEq, and_true]
          constructor <;> ring
        rw [hfoot, vsub_turn, scalar_turn, ← vnorm_turn]
        congr 1
        simp only [turn, real_mul, real_add, real_div, V3.mk.injEq, and_true]
        constructor <;> ring

/-- results of the search that are images of one another, unless the hexagon ended one of them -/
def turnHit (M : Turn) : Hit ℝ → Hit ℝ
  | .ret c => .ret c
  | .hit i v n a => .hit i (turn M v) (turn M n) a
  | .miss => .miss

/-- the search for the next point on the wall of a monocapillary -/
theorem search_turn {D D' : Descr ℝ} (hp : D'.prof = D.prof) (hs : nShells (α := ℝ) D.n_cap = 0) (hs' : nShells (α := ℝ) D'.n_cap = 0) {capx capy : Nat → ℝ} (hx : ∀ i, capx i = 0)
    (hy : ∀ i, capy i = 0) {P Q : Photon ℝ} (hc : Q.exitC = turn M P.exitC) (hd : Q.exitD = turn M P.exitD) :
    ∀ (k i : Nat) (cur nrm : V3 ℝ), traceSearch D' capx capy Q k i (turn M cur) (turn M nrm) = turnHit M (traceSearch D capx capy P k i cur nrm) ∨
      traceSearch D capx capy P k i cur nrm = .ret (-3) ∨ traceSearch D' capx capy Q k i (turn M cur) (turn M nrm) = .ret (-3) := by
  intro k
  induction k with
  | zero => intro i cur nrm; exact Or.inl rfl
  | succ k ih =>
    intro i cur nrm
    unfold traceSearch
    have hcen : ∀ j, (⟨0, 0, D.prof.z j⟩ : V3 ℝ) = turn M ⟨0, 0, D.prof.z j⟩ := fun _ => (axis_turn M _).symm
    simp only [hx, hy, hc, hd, hp, hs, hs', if_true]
    have hseg : segment (⟨0, 0, D.prof.z i⟩ : V3 ℝ) ⟨0, 0, D.prof.z (i + 1)⟩ (D.prof.cap i) (D.prof.cap (i + 1)) (atGrid D.prof (turn M P.exitC) (turn M P.exitD) i)
        (atGrid D.prof (turn M P.exitC) (turn M P.exitD) (i + 1)) (turn M P.exitD) (turn M cur) (turn M nrm) =
        ((segment (⟨0, 0, D.prof.z i⟩ : V3 ℝ) ⟨0, 0, D.prof.z (i + 1)⟩ (D.prof.cap i) (D.prof.cap (i + 1)) (atGrid D.prof P.exitC P.exitD i) (atGrid D.prof P.exitC P.exitD (i + 1)) P.exitD cur nrm).1,
         turn M (segment (⟨0, 0, D.prof.z i⟩ : V3 ℝ) ⟨0, 0, D.prof.z (i + 1)⟩ (D.prof.cap i) (D.prof.cap (i + 1)) (atGrid D.prof P.exitC P.exitD i) (atGrid D.prof P.exitC P.exitD (i + 1)) P.exitD cur nrm).2.1,
         turn M (segment (⟨0, 0, D.prof.z i⟩ : V3 ℝ) ⟨0, 0, D.prof.z (i + 1)⟩ (D.prof.cap i) (D.prof.cap (i + 1)) (atGrid D.prof P.exitC P.exitD i) (atGrid D.prof P.exitC P.exitD (i + 1)) P.exitD cur nrm).2.2) := by
      rw [hcen i, hcen (i + 1), atGrid_turn, atGrid_turn, segment_turn, axis_turn, axis_turn]
    rw [hseg]
    generalize segment (⟨0, 0, D.prof.z i⟩ : V3 ℝ) ⟨0, 0, D.prof.z (i + 1)⟩ (D.prof.cap i) (D.prof.cap (i + 1)) (atGrid D.prof P.exitC P.exitD i)
      (atGrid D.prof P.exitC P.exitD (i + 1)) P.exitD cur nrm = s
    have hz : ∀ v : V3 ℝ, (turn M v).z = v.z := fun _ => rfl
    simp only [scalar_turn, radius_turn, hz]
    have := ih (i + 1) s.2.1 s.2.2
    split_ifs <;> first | exact Or.inl rfl | exact Or.inr (Or.inl rfl) | exact Or.inr (Or.inr rfl) | exact this

/-- `Q` is where the image of `P` would be, and has made as many reflections; its way so far is longer by `δ` -/
structure Way (M : Turn) (δ : ℝ) (P Q : Photon ℝ) : Prop where
  exitC : Q.exitC = turn M P.exitC
  exitD : Q.exitD = turn M P.exitD
  i_refl : Q.i_refl = P.i_refl
  d_travel : Q.d_travel = P.d_travel + δ

theorem trace_way {D D' : Descr ℝ} (hp : D'.prof = D.prof) (hs : nShells (α := ℝ) D.n_cap = 0) (hs' : nShells (α := ℝ) D'.n_cap = 0) {capx capy : Nat → ℝ} (hx : ∀ i, capx i = 0)
    (hy : ∀ i, capy i = 0) {leak leak' : Bool} {fuel fuel' k k' ix : Nat} {δ : ℝ} {P Q : Photon ℝ} (h : Way M δ P Q) {x y : Int × Nat × Photon ℝ}
    (h1 : trace D leak fuel k capx capy ix P = .ok x) (h2 : trace D' leak' fuel' k' capx capy ix Q = .ok y) :
    (y.1 = x.1 ∧ y.2.1 = x.2.1 ∧ Way M δ x.2.2 y.2.2) ∨ Lost x.1 ∨ Lost y.1 := by
  have h0 : Way M δ { P with exitD := vnorm P.exitD, startD := vnorm P.startD } { Q with exitD := vnorm Q.exitD, startD := vnorm Q.startD } :=
    ⟨h.exitC, by simp only [h.exitD, vnorm_turn], h.i_refl, h.d_travel⟩
  have e0 : (lit 0 : ℝ) = 0 := by simp
  have hsr := search_turn M hp hs hs' hx hy h0.exitC h0.exitD (D.prof.nmax - ix) ix P.exitC ⟨0, 0, 0⟩
  rw [axis_turn, ← h.exitC] at hsr
  unfold trace capilTrace at h1 h2
  simp only [e0, hp] at hsr h1 h2
  generalize ({ P with exitD := vnorm P.exitD, startD := vnorm P.startD } : Photon ℝ) = P0 at h0 hsr h1
  generalize ({ Q with exitD := vnorm Q.exitD, startD := vnorm Q.startD } : Photon ℝ) = Q0 at h0 hsr h2
  rcases hsr with hsr | hsr | hsr
  · rw [hsr] at h2
    cases hS : traceSearch D capx capy P0 (D.prof.nmax - ix) ix P.exitC ⟨0, 0, 0⟩ with
    | ret c =>
      rw [hS] at h1 h2
      simp only [turnHit] at h1 h2
      cases h1; cases h2
      exact Or.inl ⟨rfl, rfl, h0⟩
    | miss =>
      rw [hS] at h1 h2
      simp only [turnHit] at h1 h2
      cases h1; cases h2
      exact Or.inl ⟨rfl, rfl, h0⟩
    | hit i v n a =>
      rw [hS] at h1 h2
      simp only [turnHit] at h1 h2
      have w1 : Way M δ { P0 with d_travel := P0.d_travel +. dist3 v P0.exitC, exitC := v } { Q0 with d_travel := Q0.d_travel +. dist3 (turn M v) Q0.exitC, exitC := turn M v } := by
        refine ⟨rfl, h0.exitD, h0.i_refl, ?_⟩
        simp only [h0.d_travel, h0.exitC, dist3_turn, real_add]
        ring
      unfold traceHit at h1 h2
      have hz : (turn M v).z = v.z := rfl
      simp only [radius_turn, hz, hs, hs', hp, lt_irrefl, false_and, if_false] at h1 h2
      generalize ({ P0 with d_travel := P0.d_travel +. dist3 v P0.exitC, exitC := v } : Photon ℝ) = P1 at w1 h1
      generalize ({ Q0 with d_travel := Q0.d_travel +. dist3 (turn M v) Q0.exitC, exitC := turn M v } : Photon ℝ) = Q1 at w1 h2
      split_ifs at h1 h2
      · cases h1; exact Or.inr (Or.inl (Or.inr (Or.inl rfl)))
      · cases h1; exact Or.inr (Or.inl (Or.inr (Or.inr rfl)))
      · cases hr : reflect D leak fuel k n P1 with
        | ub => rw [hr, Out.bind_ub] at h1; cases h1
        | fuel => rw [hr, Out.bind_fuel] at h1; cases h1
        | ok r =>
          cases hr' : reflect D' leak' fuel' k' (turn M n) Q1 with
          | ub => rw [hr', Out.bind_ub] at h2; cases h2
          | fuel => rw [hr', Out.bind_fuel] at h2; cases h2
          | ok r' =>
            obtain ⟨c, P2⟩ := r
            obtain ⟨c', Q2⟩ := r'
            rw [hr, Out.bind_ok] at h1
            rw [hr', Out.bind_ok] at h2
            cases h1; cases h2
            obtain ⟨a1, a2, a3, a4, a5⟩ := reflect_track hr
            obtain ⟨b1, b2, b3, b4, b5⟩ := reflect_track hr'
            by_cases hc : c = 1
            · by_cases hc' : c' = 1
              · subst hc hc'
                simp only [afterReflect, if_true]
                refine Or.inl ⟨trivial, trivial, ⟨?_, ?_, ?_, ?_⟩⟩
                · show Q2.exitC = turn M P2.exitC
                  rw [a1, b1, w1.exitC]
                · show reflectDir Q2.exitD (turn M n) a = turn M (reflectDir P2.exitD n a)
                  rw [a2, b2, w1.exitD, vnorm_turn, reflectDir_turn]
                · show Q2.i_refl + 1 = P2.i_refl + 1
                  rw [a3, b3, w1.i_refl]
                · show Q2.d_travel = P2.d_travel + δ
                  rw [a4, b4, w1.d_travel]
              · refine Or.inr (Or.inr ?_)
                unfold afterReflect Lost
                rcases b5 with rfl | rfl | rfl | rfl <;> simp at hc' ⊢
            · refine Or.inr (Or.inl ?_)
              unfold afterReflect Lost
              rcases a5 with rfl | rfl | rfl | rfl <;> simp at hc ⊢
  · rw [hsr] at h1
    cases h1
    exact Or.inr (Or.inl (Or.inr (Or.inr rfl)))
  · rw [hsr] at h2
    cases h2
    exact Or.inr (Or.inr (Or.inr (Or.inr rfl)))

theorem loop_way {D D' : Descr ℝ} (hp : D'.prof = D.prof) (hs : nShells (α := ℝ) D.n_cap = 0) (hs' : nShells (α := ℝ) D'.n_cap = 0) {capx capy : Nat → ℝ} (hx : ∀ i, capx i = 0)
    (hy : ∀ i, capy i = 0) {leak leak' : Bool} {fuel fuel' k k' : Nat} {δ : ℝ} :
    ∀ (N : Nat) {c0 c0' : Int} {ix : Nat} {P Q : Photon ℝ} {x y : Int × Nat × Photon ℝ}, Way M δ P Q →
      traceLoop (trace D leak fuel k capx capy) N c0 ix P = .ok x → traceLoop (trace D' leak' fuel' k' capx capy) N c0' ix Q = .ok y → ¬ Lost x.1 → ¬ Lost y.1 → Way M δ x.2.2 y.2.2 := by
  intro N
  induction N with
  | zero => intro c0 c0' ix P Q x y h h1 h2 _ _; cases h1; cases h2; exact h
  | succ N ih =>
    intro c0 c0' ix P Q x y h h1 h2 l1 l2
    unfold traceLoop at h1 h2
    cases ht : trace D leak fuel k capx capy ix P with
    | ub => rw [ht, Out.bind_ub] at h1; cases h1
    | fuel => rw [ht, Out.bind_fuel] at h1; cases h1
    | ok u =>
      cases ht' : trace D' leak' fuel' k' capx capy ix Q with
      | ub => rw [ht', Out.bind_ub] at h2; cases h2
      | fuel => rw [ht', Out.bind_fuel] at h2; cases h2
      | ok v =>
        rw [ht, Out.bind_ok] at h1
        rw [ht', Out.bind_ok] at h2
        have n1 : ∀ c, Lost c → c ≠ 1 := by rintro c (rfl | rfl | rfl) <;> decide
        have k1 : ¬ Lost u.1 := by
          intro hl
          rw [if_pos (n1 _ hl)] at h1
          cases h1
          exact l1 hl
        have k2 : ¬ Lost v.1 := by
          intro hl
          rw [if_pos (n1 _ hl)] at h2
          cases h2
          exact l2 hl
        rcases trace_way M hp hs hs' hx hy h ht ht' with ⟨e1, e2, w⟩ | hl | hl
        · rw [e1, e2] at h2
          split_ifs at h1 h2
          · cases h1; cases h2; exact w
          · exact ih w h1 h2 l1 l2
        · exact absurd hl k1
        · exact absurd hl k2

/-! ## Launching -/

theorem cap_turn {D D' : Descr ℝ} (hp : D'.prof = D.prof) (hs : nShells (α := ℝ) D.n_cap = 0) (hs' : nShells (α := ℝ) D'.n_cap = 0) (c : V3 ℝ) :
    launchCap D' (turn M c) = launchCap D c := by
  unfold launchCap
  have hz : (turn M c).z = c.z := rfl
  simp only [hs, hs', if_true, radius_turn, hz, hp]

theorem mono_axis {D : Descr ℝ} (h1 : 1 ≤ D.n_cap) : (∀ i, axX D (0, 0) i = 0) ∧ ∀ i, axY D (0, 0) i = 0 :=
  ⟨fun i => by rw [axX_eq D h1]; simp [centreX], fun i => by rw [axY_eq D h1]; simp [centreY]⟩

theorem glass_turn {D D' : Descr ℝ} (hp : D'.prof = D.prof) (h1 : 1 ≤ D.n_cap) (h1' : 1 ≤ D'.n_cap) (c : V3 ℝ) :
    startsInWall D' (0, 0) (turn M c) = startsInWall D (0, 0) c := by
  have zero : ∀ (p : Profile ℝ) (z : ℝ), atStart p (fun _ => 0) z = 0 := by
    intro p z
    unfold atStart interpAt interp
    split_ifs <;> simp
  unfold startsInWall
  have hz : (turn M c).z = c.z := rfl
  rw [show axX D (0, 0) = fun _ => 0 from funext (mono_axis h1).1, show axY D (0, 0) = fun _ => 0 from funext (mono_axis h1).2,
    show axX D' (0, 0) = fun _ => 0 from funext (mono_axis h1').1, show axY D' (0, 0) = fun _ => 0 from funext (mono_axis h1').2]
  simp only [zero, real_sub, sub_zero, radius_turn, hz, hp]

theorem mono_cap {D : Descr ℝ} (hs : nShells (α := ℝ) D.n_cap = 0) {c : V3 ℝ} {qr : Int × Int} (h : launchCap D c = some qr) : qr = (0, 0) := by
  unfold launchCap at h
  simp only [hs, if_true] at h
  split_ifs at h
  cases h
  rfl

/-- **C106.**  Two photons start in one and the same monocapillary (`n_cap ≤ 3`) from positions and in directions that differ by a rotation about the axis of the optic, or by
a reflection in a plane through it.  If both get through (return value 1; the first not launched in glass),
then they come out at positions and in directions that differ by that rotation, after as many reflections, and along equally long ways – whatever their energies,
polarisations, the composition, density and roughness of the glass, and whether leaks are calculated.  (`d_travel`, which a launch does not reset, may differ beforehand.) -/
theorem capillary_is_round (lib lib' : Xray ℝ) (D D' : Descr ℝ) (hp : D'.prof = D.prof) (h1 : 1 ≤ D.n_cap) (h3 : D.n_cap ≤ 3) (h1' : 1 ≤ D'.n_cap) (h3' : D'.n_cap ≤ 3) (g : Grid D.prof)
    (leak leak' : Bool) (fuel fuel' k k' : Nat) (P Q : Photon ℝ) (es es' : List ℝ) (M : Turn) (hC : Q.startC = turn M P.startC) (hD : Q.startD = turn M P.startD)
    (z0 : 0 ≤ P.startC.z) (z1 : P.startC.z ≤ D.prof.z D.prof.nmax) {R rad : ℝ} (hR : ValueAt D.prof D.prof.ext P.startC.z R) (hrad : ValueAt D.prof D.prof.cap P.startC.z rad)
    (hg : ¬ InGlass D.n_cap R rad P.startC) (w w' : WOut ℝ) (P' Q' : Photon ℝ)
    (h : launch lib (some D) leak fuel k (some P) (some es) true = .ok (1, w, some P'))
    (h' : launch lib' (some D') leak' fuel' k' (some Q) (some es') true = .ok (1, w', some Q')) :
    Q'.exitC = turn M P'.exitC ∧ Q'.exitD = turn M P'.exitD ∧ Q'.i_refl = P'.i_refl ∧ Q'.d_travel - Q.d_travel = P'.d_travel - P.d_travel := by
  have hs : nShells (α := ℝ) D.n_cap = 0 := (nShells_zero_iff D.n_cap h1).mpr h3
  have hs' : nShells (α := ℝ) D'.n_cap = 0 := (nShells_zero_iff D'.n_cap h1').mpr h3'
  cases hq : launchCap D P.startC with
  | none =>
    exfalso
    unfold launch at h
    simp only at h
    split_ifs at h with hbad
    · cases h
    · unfold launchBody at h
      have hs : (launchInit lib D es P).startC = P.startC := rfl
      simp only [hs, hq, Out.bind_ok] at h
      cases h
  | some qr =>
    have hw : startsInWall D qr P.startC = false := by
      have := (startsInWall_iff g h1 z0 z1 hR hrad hq).not.mpr hg
      simpa using this
    have hqr := mono_cap hs hq
    subst hqr
    obtain ⟨x, tx, px, lx⟩ := launch_in hq hw h
    obtain ⟨y, ty, py, ly⟩ := launch_in (by rw [hC, cap_turn M hp hs hs']; exact hq) (by rw [hC, glass_turn M hp h1 h1']; exact hw) h'
    rw [show axX D (0, 0) = fun _ => 0 from funext (mono_axis h1).1, show axY D (0, 0) = fun _ => 0 from funext (mono_axis h1).2] at tx
    rw [show axX D' (0, 0) = fun _ => 0 from funext (mono_axis h1').1, show axY D' (0, 0) = fun _ => 0 from funext (mono_axis h1').2, hp, hC,
      show (turn M P.startC).z = P.startC.z from rfl] at ty
    have w0 : Way M (Q.d_travel - P.d_travel) (launchInit lib D es P) (launchInit lib' D' es' Q) := by
      refine ⟨hC, ?_, rfl, ?_⟩
      · simp only [launchInit, hD, vnorm_turn]
      · show Q.d_travel = P.d_travel + (Q.d_travel - P.d_travel)
        ring
    have wf := loop_way M hp hs hs' (fun _ => rfl) (fun _ => rfl) _ w0 tx ty lx ly
    injection px with px
    injection py with py
    subst px py
    refine ⟨wf.exitC, wf.exitD, wf.i_refl, ?_⟩
    have := wf.d_travel
    show y.2.2.d_travel - Q.d_travel = x.2.2.d_travel - P.d_travel
    rw [this]
    ring

/-- … and whether a photon starts outside the optic (return value -2) is the same for both. -/
theorem outside_is_round (lib lib' : Xray ℝ) (D D' : Descr ℝ) (hp : D'.prof = D.prof) (h1 : 1 ≤ D.n_cap) (h3 : D.n_cap ≤ 3) (h1' : 1 ≤ D'.n_cap) (h3' : D'.n_cap ≤ 3) (g : Grid D.prof)
    (leak leak' : Bool) (fuel fuel' k k' : Nat) (P Q : Photon ℝ) (es es' : List ℝ) (hes : es ≠ []) (hb : ∀ e ∈ es, 1 ≤ e ∧ e ≤ 100) (hes' : es' ≠ []) (hb' : ∀ e ∈ es', 1 ≤ e ∧ e ≤ 100)
    (M : Turn) (hC : Q.startC = turn M P.startC)
    (z0 : 0 ≤ P.startC.z) (z1 : P.startC.z ≤ D.prof.z D.prof.nmax) {R : ℝ} (hR : ValueAt D.prof D.prof.ext P.startC.z R) (hpos : 0 < R)
    (c c' : Int) (w w' : WOut ℝ) (P' Q' : Option (Photon ℝ))
    (h : launch lib (some D) leak fuel k (some P) (some es) true = .ok (c, w, P'))
    (h' : launch lib' (some D') leak' fuel' k' (some Q) (some es') true = .ok (c', w', Q')) : c = -2 ↔ c' = -2 := by
  have hz : Q.startC.z = P.startC.z := by rw [hC]; rfl
  rw [launch_outside_iff lib D leak fuel k P es hes hb g h1 z0 z1 R hR hpos c w P' h,
    launch_outside_iff lib' D' leak' fuel' k' Q es' hes' hb' (by rw [hp]; exact g) h1' (by rw [hz]; exact z0) (by rw [hz, hp]; exact z1) R (by rw [hp, hz]; exact hR) hpos c' w' Q' h']
  unfold Outside
  rw [if_pos h3, if_pos h3', hC]
  have : (turn M P.startC).x ^ 2 + (turn M P.startC).y ^ 2 = P.startC.x ^ 2 + P.startC.y ^ 2 := by
    have := plane M P.startC.x P.startC.y P.startC.x P.startC.y
    simp only [turn]
    linear_combination this
  rw [this]

/-! ## What is not round: the hexagon -/

/-- A photon launched in the entrance of a monocapillary's bore, but outside the hexagon, is discarded (return value -1), unless it meets the wall before the next profile point. -/
theorem hexagon_discards (lib : Xray ℝ) (D : Descr ℝ) (h1 : 1 ≤ D.n_cap) (h3 : D.n_cap ≤ 3) (g : Grid D.prof) (hr : Radii D.prof) (leak : Bool) (fuel k : Nat) (P : Photon ℝ) (es : List ℝ)
    (hes : es ≠ []) (hb : ∀ e ∈ es, 1 ≤ e ∧ e ≤ 100) (z0 : P.startC.z = 0) (hd : 0 < P.startD.z)
    (hin : P.startC.x ^ 2 + P.startC.y ^ 2 ≤ D.prof.cap 0 ^ 2) (hle : D.prof.cap 0 ≤ D.prof.ext 0) (hhex : ¬ InHex (D.prof.ext 0) P.startC.x P.startC.y)
    (hob : (P.startD.x / P.startD.z) ^ 2 + (P.startD.y / P.startD.z) ^ 2 ≠ ((D.prof.cap 1 - D.prof.cap 0) / (D.prof.z 1 - D.prof.z 0)) ^ 2)
    (hclear : ∀ z, 1 / 10 ^ 5 ≤ z → z ≤ D.prof.z 1 → (lineAt P.startC P.startD z).x ^ 2 + (lineAt P.startC P.startD z).y ^ 2 ≠ linAt (D.prof.z 0) (D.prof.z 1) (D.prof.cap 0) (D.prof.cap 1) z ^ 2) :
    ∃ w P', launch lib (some D) leak fuel k (some P) (some es) true = .ok (-1, w, P') := by
  have hs : nShells (α := ℝ) D.n_cap = 0 := (nShells_zero_iff D.n_cap h1).mpr h3
  have hb' : ¬ ArgsBad (some D) (some P) (some es) true := not_argsBad hes hb
  obtain ⟨D', P'', es', e1, e2, e3, -, -, -, h'⟩ := launch_valid lib (some D) leak fuel k (some P) (some es) true hb'
  injection e1 with e1; injection e2 with e2; injection e3 with e3; subst e1 e2 e3
  have n1 := g.two
  have zz : D.prof.z 0 = 0 := g.start
  have zp : 0 < D.prof.z 1 := by have := g.inc 0 (by omega); rwa [zz] at this
  have zN : 0 ≤ D.prof.z D.prof.nmax := g.z_nonneg (le_refl _)
  have r0 := hr.cap 0 (by omega)
  have x0 := hr.ext 0 (by omega)
  have x1 := hr.ext 1 (by omega)
  have vR : ValueAt D.prof D.prof.ext P.startC.z (D.prof.ext 0) := ⟨0, by omega, by rw [zz, z0], by rw [z0]; exact zp.le, by simp [linAt, z0, zz]⟩
  have vr : ValueAt D.prof D.prof.cap P.startC.z (D.prof.cap 0) := ⟨0, by omega, by rw [zz, z0], by rw [z0]; exact zp.le, by simp [linAt, z0, zz]⟩
  have hle0 : 0 ≤ P.startC.z := z0.ge
  have hleN : P.startC.z ≤ D.prof.z D.prof.nmax := by rw [z0]; exact zN
  have hext : launchExt D.prof P.startC.z = D.prof.ext 0 := (launchExt_value g hle0 hleN).unique g vR
  have hrad : Real.sqrt (P.startC.x ^ 2 + P.startC.y ^ 2) ≤ D.prof.cap 0 := by
    rw [Real.sqrt_le_left r0]; exact hin
  obtain ⟨qr, hq⟩ : ∃ qr, launchCap D P.startC = some qr := by
    refine Option.ne_none_iff_exists'.mp fun h => ?_
    have := (launchCap_none h1 (by rw [hext]; exact x0)).mp h
    unfold Outside at this
    rw [if_pos h3, hext] at this
    linarith
  have hqr := mono_cap hs hq
  subst hqr
  have hw : startsInWall D (0, 0) P.startC = false := by
    have := (startsInWall_iff g h1 hle0 hleN vR vr hq).not.mpr (by
      unfold InGlass
      rw [if_pos h3, not_lt]
      exact hrad)
    simpa using this
  rw [h']
  have q1 : (launchInit lib D es P).startC = P.startC := rfl
  unfold launchBody
  simp only [q1, hq, hw, Bool.false_eq_true, if_false]
  unfold launchInside
  have hix : segIdFrom D.prof.z 0 (launchInit lib D es P).startC.z (D.prof.nmax + 1) = 0 := by
    refine segId_zero _ _ _ _ (by rw [q1, z0, zz]) fun i hi1 hi2 => ?_
    rw [q1, z0]
    have : D.prof.z 1 ≤ D.prof.z i := mono_of_step g.inc hi1 (by omega)
    linarith
  rw [hix]
  have tr : ∃ Q, trace D leak fuel k (axX D (0, 0)) (axY D (0, 0)) 0 (launchInit lib D es P) = .ok (-3, 0, Q) := by
    unfold trace capilTrace
    have e0 : (lit 0 : ℝ) = 0 := by simp
    have hC : (launchInit lib D es P).exitC = P.startC := rfl
    have hD : vnorm (launchInit lib D es P).exitD = vnorm P.startD := by
      show vnorm (vnorm (vnorm P.startD)) = _
      rw [Total.vnorm_vnorm, Total.vnorm_vnorm]
    rw [hD, hC, e0]
    obtain ⟨m, hm⟩ : ∃ m, D.prof.nmax - 0 = m + 1 := ⟨D.prof.nmax - 1, by omega⟩
    rw [hm]
    obtain ⟨s, hs0, hv, -⟩ := vnorm_scale P.startD hd
    have hvz : 0 < (vnorm P.startD).z := by rw [hv]; exact mul_pos hs0 hd
    have at0 : atGrid D.prof P.startC (vnorm P.startD) 0 = P.startC := by
      rw [atGrid_eq]
      have e : D.prof.z 0 - P.startC.z = 0 := by rw [zz, z0, sub_zero]
      rw [e]
      simp only [mul_zero, zero_div, add_zero]
      rw [zz, ← z0]
    have hsearch : ∀ Q : Photon ℝ, Q.exitC = P.startC → Q.exitD = vnorm P.startD → traceSearch D (axX D (0, 0)) (axY D (0, 0)) Q (m + 1) 0 P.startC ⟨0, 0, 0⟩ = .ret (-3) := by
      intro Q qc qd
      unfold traceSearch
      simp only [(mono_axis h1).1, (mono_axis h1).2, qc, qd]
      rw [boundary_axis x0, boundary_axis x1, if_neg (by decide)]
      have hseg : (segment (⟨0, 0, D.prof.z 0⟩ : V3 ℝ) ⟨0, 0, D.prof.z (0 + 1)⟩ (D.prof.cap 0) (D.prof.cap (0 + 1)) (atGrid D.prof P.startC (vnorm P.startD) 0)
          (atGrid D.prof P.startC (vnorm P.startD) (0 + 1)) (vnorm P.startD) P.startC ⟨0, 0, 0⟩).1 ≠ 1 := by
        intro hc
        rw [at0] at hc
        obtain ⟨v, n, hvn⟩ : ∃ v n, segment (⟨0, 0, D.prof.z 0⟩ : V3 ℝ) ⟨0, 0, D.prof.z (0 + 1)⟩ (D.prof.cap 0) (D.prof.cap (0 + 1)) P.startC
          (atGrid D.prof P.startC (vnorm P.startD) (0 + 1)) (vnorm P.startD) P.startC ⟨0, 0, 0⟩ = (1, v, n) := ⟨_, _, Prod.ext hc rfl⟩
        have ha : genCoeff (⟨0, 0, D.prof.z 0⟩ : V3 ℝ) ⟨0, 0, D.prof.z (0 + 1)⟩ (D.prof.cap 0) (D.prof.cap (0 + 1)) (vnorm P.startD) ≠ 0 := by
          rw [genCoeff_vnorm _ _ _ _ _ hd]
          unfold genCoeff
          simp only [sub_self, zero_div, sub_zero, zero_add]
          exact sub_ne_zero.mpr hob
        obtain ⟨a1, -, -, a4, a5, a6, -⟩ := segment_sound _ _ _ _ _ _ _ _ _ _ _ hvz ha hvn
        have hline : lineAt P.startC (vnorm P.startD) v.z = lineAt P.startC P.startD v.z := by
          rw [hv]
          have hs0' := hs0.ne'
          simp only [lineAt, V3.mk.injEq, and_true]
          constructor <;> (have := hd.ne'; field_simp)
        refine hclear v.z (by rw [z0] at a5; linarith) (by simpa using a4) ?_
        rw [← hline, ← a1]
        unfold OnWall at a6
        simpa [linAt] using a6
      have hne : ∀ b : Bool, (if b = true then (-5 : Int) else (segment (⟨0, 0, D.prof.z 0⟩ : V3 ℝ) ⟨0, 0, D.prof.z (0 + 1)⟩ (D.prof.cap 0) (D.prof.cap (0 + 1))
          (atGrid D.prof P.startC (vnorm P.startD) 0) (atGrid D.prof P.startC (vnorm P.startD) (0 + 1)) (vnorm P.startD) P.startC ⟨0, 0, 0⟩).1) ≠ 1 := by
        intro b; cases b
        · simpa using hseg
        · simp
      rw [if_neg (hne _)]
      have hout : withinPcBoundary (D.prof.ext 0) (atGrid D.prof P.startC (vnorm P.startD) 0).x (atGrid D.prof P.startC (vnorm P.startD) 0).y = 0 := by
        rw [at0]
        exact (boundary_spec _ _ _).2.2 x0 hhex
      rw [if_pos hout]
    dsimp only
    rw [hsearch _ rfl rfl]
    exact ⟨_, rfl⟩
  obtain ⟨Q, hQ⟩ := tr
  unfold traceLoop
  dsimp only
  rw [hQ]
  simp only [Out.bind_ok]
  rw [if_pos (by decide)]
  exact ⟨_, _, rfl⟩

open Polycap.Tube

/-- a straight tube with a bore nearly as wide as the optic, and the entrance of a photon in it -/
noncomputable def wD : Descr ℝ := tD (95/100) 4 1
noncomputable def wPh : Photon ℝ := exP ⟨9/10, 0, 0⟩ ⟨1/100, 0, 1⟩ 0

/-- a quarter turn about the axis -/
def quarter : Turn := ⟨0, -1, 1, 0, by norm_num, by norm_num, by norm_num⟩

/-- `exP` launched from the image of its start -/
def turned (M : Turn) (P : Photon ℝ) : Photon ℝ := { P with startC := turn M P.startC, startD := turn M P.startD }

/-- **The fate of a photon is not the same for every direction**: in a straight tube of radius 0.95 cm in an optic of radius 1 cm, a photon from the side x = 0.9 cm of the entrance passes
without meeting the wall; turned by a quarter, it is discarded without having met anything, as there the hexagon ends at 0.866 cm. -/
theorem tube_not_round (lib : Xray ℝ) : ∃ P' w Q', launch lib (some wD) false 0 1 (some wPh) (some [10]) true = .ok (1, .filled [1], some P') ∧
    launch lib (some wD) false 0 1 (some (turned quarter wPh)) (some [10]) true = .ok (-1, w, Q') := by
  have g : Grid wD.prof := tGrid (by norm_num)
  have hr : Radii wD.prof := ⟨fun i _ => by show (0:ℝ) ≤ 95/100; norm_num, fun i _ => by show (0:ℝ) < 1; norm_num⟩
  have s3 : (1732 / 1000 : ℝ) ≤ Real.sqrt 3 ∧ Real.sqrt 3 ≤ 1733 / 1000 := by
    constructor
    · exact Real.le_sqrt_of_sq_le (by norm_num)
    · rw [Real.sqrt_le_left (by norm_num)]; norm_num
  have hz : ∀ i, wD.prof.z i = 4 * i := fun _ => rfl
  have hnm : wD.prof.nmax = 1 := rfl
  have hcap : ∀ i, wD.prof.cap i = 95/100 := fun _ => rfl
  have hext : ∀ i, wD.prof.ext i = 1 := fun _ => rfl
  obtain ⟨P', h, -⟩ := mono_clear_transmitted_partial lib wD (by simp [wD, tD]) (by simp [wD, tD]) g hr false 0 1 wPh [10] (by simp) (by simp; norm_num) (by simp [wPh, exP])
    (by simp [wPh, exP, hz]) (by simp [wPh, exP]) 1 (95/100) ⟨0, by norm_num [hnm], by simp [hz, wPh, exP], by simp [hz, wPh, exP], by simp [linAt, hext]⟩
    ⟨0, by norm_num [hnm], by simp [hz, wPh, exP], by simp [hz, wPh, exP], by simp [linAt, hcap]⟩ (by
      rw [Real.sqrt_le_left (by norm_num)]; simp [wPh, exP]; norm_num) (by norm_num) (by
      intro i _
      simp only [wPh, exP, hcap, sub_self, zero_div]
      norm_num) (by
      rintro z r hz0 ⟨i, hi, hi0, hi1, rfl⟩
      rw [hnm] at hi
      have : i = 0 := by omega
      subst this
      rw [hz, hz] at *
      simp only [wPh, exP, lineAt, linAt, hcap, sub_self, zero_mul, add_zero, mul_zero, div_one, sub_zero] at *
      push_cast at *
      intro h
      nlinarith) (by
      intro i hi _
      rw [hnm] at hi
      have : i = 0 := by omega
      subst this
      simp only [wPh, exP, lineAt, hz, hext, InHex]
      norm_num
      refine ⟨by positivity, ?_⟩
      rw [abs_of_nonneg (by simp only [cospi6, real_lit]; norm_num)]
      simp only [cospi6, real_lit]; norm_num; linarith [s3.1]) none
  obtain ⟨w, Q', h'⟩ := hexagon_discards lib wD (by simp [wD, tD]) (by simp [wD, tD]) g hr false 0 1 (turned quarter wPh) [10] (by simp) (by simp; norm_num)
    (by simp [turned, turn, wPh, exP]) (by simp [turned, turn, wPh, exP]) (by simp [turned, turn, quarter, wPh, exP, hcap]; norm_num) (by rw [hcap, hext]; norm_num) (by
      rintro ⟨h, -⟩
      simp only [turned, turn, quarter, wPh, exP, hext] at h
      rw [abs_of_nonneg (by norm_num)] at h
      norm_num at h
      linarith [s3.2]) (by
      simp only [turned, turn, quarter, wPh, exP, hcap]
      norm_num) (by
      intro z hz0 hz1
      rw [hz] at hz1
      simp only [turned, turn, quarter, wPh, exP, hcap, lineAt, linAt, sub_self, zero_mul, add_zero, mul_zero, div_one, sub_zero]
      intro h
      norm_num at h hz1
      nlinarith)
  refine ⟨P', w, Q', ?_, h'⟩
  rw [← launchE_value (e := none), h]
  rfl

/-! ## A skew photon, turned -/

open Bore in
theorem lateral_turn (v : V3 ℝ) : lateral (turn M v) = lateral v := by
  have := plane M v.x v.y v.x v.y
  simp only [lateral, turn]
  linear_combination this

open Bore in
theorem chord_turn (r : ℝ) (c d : V3 ℝ) : chord r 0 0 (turn M c) (turn M d) = chord r 0 0 c d := by
  have h1 := plane M c.x c.y d.x d.y
  have h2 := plane M c.x c.y c.x c.y
  unfold chord
  rw [lateral_turn]
  have e1 : drift 0 0 (turn M c) (turn M d) = drift 0 0 c d := by
    simp only [drift, turn, sub_zero]
    linear_combination h1
  have e2 : off 0 0 (turn M c) = off 0 0 c := by
    simp only [off, turn, sub_zero]
    linear_combination h2
  rw [e1, e2]

open Bore in
theorem hitZ_turn (r : ℝ) (c d : V3 ℝ) : hitZ r 0 0 (turn M c) (turn M d) = hitZ r 0 0 c d := by
  have h1 := plane M c.x c.y d.x d.y
  have e1 : drift 0 0 (turn M c) (turn M d) = drift 0 0 c d := by
    simp only [drift, turn, sub_zero]
    linear_combination h1
  funext k
  unfold hitZ
  rw [chord_turn, lateral_turn, e1]
  rfl

open Bore RoughTube Total Skew in
/-- the skew photon of the example of C104, launched from any other side -/
theorem r_launch (M : Turn) (E : V3 ℝ) (hE : dot E E ≠ 0) :
    ∃ P', launch zLib (some (tD sR 4 1)) false 0 1 (some (turned M (sPh E))) (some [10]) true = .ok (1, .filled [1], some P') ∧ P'.i_refl = 2 := by
  have hc : 0 < zc := by norm_num [zc]
  have hs : 0 < zs := by norm_num [zs]
  have hr : 0 < sR := by unfold sR; positivity
  have hu : dot (⟨0, zs, zc⟩ : V3 ℝ) ⟨0, zs, zc⟩ = 1 := by have := zUnit; unfold dot; nlinarith
  have hv : vnorm (⟨0, zs, zc⟩ : V3 ℝ) = ⟨0, zs, zc⟩ := vnorm_unit _ hu
  have hl : lateral ⟨0, zs, zc⟩ = zs ^ 2 := by simp [lateral]
  have hch : chord sR 0 0 ⟨sX, 0, 0⟩ ⟨0, zs, zc⟩ = zs * (zs / zc) := by
    unfold chord
    rw [hl]
    simp only [drift, off]
    rw [show ((sX - 0) * 0 + (0 - 0) * zs) ^ 2 + zs ^ 2 * (sR ^ 2 - ((sX - 0) ^ 2 + (0 - 0) ^ 2)) = (zs * (zs / zc)) ^ 2 by unfold sR sX; ring, Real.sqrt_sq (by positivity)]
  have hh : hitZ sR 0 0 ⟨sX, 0, 0⟩ ⟨0, zs, zc⟩ = fun k : Nat => 2 * (k : ℝ) + 1 := by
    funext k
    unfold hitZ
    rw [hch, hl]
    simp only [drift]
    field_simp
    ring
  have hq : chord sR 0 0 ⟨sX, 0, 0⟩ ⟨0, zs, zc⟩ / sR = 4 / 5 * zs := by rw [hch]; unfold sR; field_simp
  have hgl : ∀ e, scatfOf zLib (tD sR 4 1) e = 1/2 ∧ amuOf zLib (tD sR 4 1) e = 0 := by
    intro e
    simp [amuOf, scatfOf, tD, zLib]
    norm_num
  have gg := r_glass (cs := [rCh 10 1]) (by intro c hc; simp at hc; subst hc; simp [rCh]; norm_num)
  have h := straight_total zLib (tD sR 4 1) 0 0 (turned M (sPh E)) [10] (by simp) (by simp; norm_num)
    ⟨by norm_num [tD], fun e _ => by rw [(hgl e).1]; norm_num, fun e _ => by rw [(hgl e).2], fun e he => by
      rw [(hgl e).1]; simp at he; subst he; exact (gg.chan (rCh 10 1) (by simp)).2.2.2.2⟩
    (t_scatf _ _ _) (by simp [tD]) (by simp [tD]) (tGrid (by norm_num)) (r := sR) (X := 1) (Δ := 4) hr (fun _ _ => rfl) (fun _ _ => rfl)
    (by intro i hi; simp [tD] at hi ⊢; linarith) (by norm_num) (by
      show sR + 4 * Real.sqrt (lateral (vnorm (turn M ⟨0, zs, zc⟩))) / (vnorm (turn M ⟨0, zs, zc⟩)).z ≤ _
      rw [vnorm_turn, hv, lateral_turn, show (turn M ⟨0, zs, zc⟩).z = zc from rfl, hl, Real.sqrt_sq hs.le]
      have h3 : (1:ℝ) ≤ Real.sqrt 3 := by rw [show (1:ℝ) = Real.sqrt 1 by simp]; exact Real.sqrt_le_sqrt (by norm_num)
      have : sR + 4 * zs / zc ≤ 1 / 2 := by norm_num [sR, zs, zc]
      linarith) (by norm_num [sR, zs, zc]) (by
        show (turn M ⟨sX, 0, 0⟩).x ^ 2 + (turn M ⟨sX, 0, 0⟩).y ^ 2 ≤ sR ^ 2
        have := plane M sX 0 sX 0
        rw [show (turn M ⟨sX, 0, 0⟩).x ^ 2 + (turn M ⟨sX, 0, 0⟩).y ^ 2 = sX ^ 2 by simp only [turn]; linear_combination this]
        norm_num [sX, sR, zs, zc]) (by simp [turned, turn, sPh, exP]) (by simp [turned, turn, sPh, exP, tD]) (by simpa [turned, turn, sPh, exP] using hc) (by
      show 0 < lateral (turn M ⟨0, zs, zc⟩)
      rw [lateral_turn, hl]; positivity) hE (N := 2) (by
      show Bore.Hits _ _ 0 0 (turn M ⟨sX, 0, 0⟩) (vnorm (turn M ⟨0, zs, zc⟩)) 2
      rw [vnorm_turn, hv]
      refine ⟨?_, ?_, ?_, ?_, ?_, ?_⟩
      · intro _; rw [hitZ_turn, hh]; norm_num [turn]
      · intro _; rw [chord_turn, lateral_turn, hch, hl]; norm_num [zs, zc, turn]
      · intro _; rw [chord_turn, hq]; norm_num [zs]
      · intro k hk i hi
        rw [hitZ_turn, hh]
        simp only [tD] at hi ⊢
        interval_cases k <;> interval_cases i <;> norm_num
      · intro k hk
        rw [hitZ_turn, hh]
        simp only [tD]
        interval_cases k <;> norm_num
      · rw [hitZ_turn, hh]; simp only [tD]; norm_num) (by simp [tD]) rfl (fun e _ => (hgl e).2) (by
      intro e he
      simp only [List.mem_singleton] at he
      subst he
      show chord sR 0 0 (turn M ⟨sX, 0, 0⟩) (vnorm (turn M ⟨0, zs, zc⟩)) / sR ≤ _
      rw [vnorm_turn, hv, chord_turn, hq, (hgl 10).1]
      refine le_trans ?_ ex_critical
      linarith)
  exact h

open Bore Skew in
/-- the hypotheses of `capillary_is_round` met by skew photons that are reflected twice, at any angle `φ` to one another and with other polarisations -/
example (φ : ℝ) (E E' : V3 ℝ) (hE : dot E E ≠ 0) (hE' : dot E' E' ≠ 0) : ∃ P' Q',
    launch zLib (some (tD sR 4 1)) false 0 1 (some (turned (Turn.by 0) (sPh E))) (some [10]) true = .ok (1, .filled [1], some P') ∧
    launch zLib (some (tD sR 4 1)) false 0 1 (some (turned (Turn.by φ) (sPh E'))) (some [10]) true = .ok (1, .filled [1], some Q') ∧
    P'.i_refl = 2 ∧ Q'.exitC = turn (Turn.by φ) P'.exitC ∧ Q'.exitD = turn (Turn.by φ) P'.exitD := by
  obtain ⟨P', h, hi⟩ := r_launch (Turn.by 0) E hE
  obtain ⟨Q', h', -⟩ := r_launch (Turn.by φ) E' hE'
  have id0 : ∀ v : V3 ℝ, turn (Turn.by 0) v = v := by intro v; simp [turn, Turn.by]
  have hsp : 0 < zs / zc := by norm_num [zs, zc]
  have g : Grid (tD sR 4 1).prof := tGrid (by norm_num)
  obtain ⟨a, b, -⟩ := capillary_is_round zLib zLib (tD sR 4 1) (tD sR 4 1) rfl (by simp [tD]) (by simp [tD]) (by simp [tD]) (by simp [tD]) g false false 0 0 1 1
    (turned (Turn.by 0) (sPh E)) (turned (Turn.by φ) (sPh E')) [10] [10] (Turn.by φ) (by simp only [turned, id0]; rfl) (by simp only [turned, id0]; rfl)
    (by simp [turned, turn, sPh, exP]) (by simp [turned, turn, sPh, exP, tD]) (R := 1) (rad := sR)
    ⟨0, by norm_num [tD], by simp [tD, turned, turn, sPh, exP], by simp [tD, turned, turn, sPh, exP], by simp [tD, linAt]⟩
    ⟨0, by norm_num [tD], by simp [tD, turned, turn, sPh, exP], by simp [tD, turned, turn, sPh, exP], by simp [tD, linAt]⟩ (by
      unfold InGlass
      rw [if_pos (by simp [tD]), not_lt]
      simp only [turned, id0]
      rw [Real.sqrt_le_left (by unfold sR; positivity)]
      simp only [sPh, exP, sX, sR]
      nlinarith [sq_nonneg (zs / zc)]) _ _ P' Q' h h'
  exact ⟨P', Q', h, h', hi, a, b⟩

end Rotation
end Polycap
