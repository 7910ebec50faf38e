import Verif.Props.LaunchErrProps
import Verif.Props.LaunchSafe

/-!
# C79: which launches report an error
-/
namespace Polycap
open CNum

/-! ## Refused arguments, photons outside, refused compositions -/

section generic
variable {α : Type} [CNum α]

/-- **Refused arguments are reported**: -1, nothing written, and INVALID_ARGUMENT in an empty error variable. -/
theorem launch_refusal_reports (lib : Xray α) (D : Option (Descr α)) (leak : Bool) (fuel k : Nat) (P : Option (Photon α))
    (energies : Option (List α)) (wptr : Bool) (h : ArgsBad D P energies wptr) :
    ∃ P', launchE lib D leak fuel k P energies wptr (some none) = .ok ((-1, .untouched, P'), some (some .invalidArgument)) := by
  cases P with
  | none => exact ⟨none, rfl⟩
  | some P =>
    cases energies with
    | none => exact ⟨some P, rfl⟩
    | some es =>
      by_cases hb : (es.isEmpty || es.any energyBad || !wptr) = true
      · refine ⟨some P, ?_⟩
        simp only [launchE, hb, if_true]
        rfl
      · have hb' : (es.isEmpty || es.any energyBad || !wptr) = false := by simpa using hb
        cases D with
        | none =>
          refine ⟨some { P with ext := [], int := [] }, ?_⟩
          simp only [launchE, hb', Bool.false_eq_true, if_false]
          rfl
        | some D =>
          exfalso
          simp only [Bool.or_eq_false_iff, Bool.not_eq_false'] at hb'
          obtain ⟨⟨h1, h2⟩, h3⟩ := hb'
          rcases h with h | h | h | ⟨es', h, e, he, hbad⟩ | h | h
          · simp at h
          · simp at h
          · injection h with h; subst h; simp at h1
          · injection h with h; subst h
            rw [List.any_eq_false] at h2
            exact h2 e he hbad
          · rw [h] at h3; simp at h3
          · simp at h

/-- with valid arguments a launch is what follows the guards -/
theorem launchE_valid (lib : Xray α) (D : Descr α) (leak : Bool) (fuel k : Nat) (P : Photon α) (es : List α) (e : EArg)
    (h : ¬ ArgsBad (some D) (some P) (some es) true) :
    launchE lib (some D) leak fuel k (some P) (some es) true e =
      (launchBodyE lib D leak fuel k P es e >>= fun x => .ok ((x.1.1, x.1.2.1, some x.1.2.2), x.2)) := by
  have hb : (es.isEmpty || es.any energyBad || !true) = false := by
    rw [Bool.eq_false_iff]
    intro hb
    simp only [Bool.not_true, Bool.or_false, Bool.or_eq_true, List.isEmpty_iff, List.any_eq_true] at hb
    rcases hb with rfl | ⟨x, hx, hx'⟩
    · exact h (.inr (.inr (.inl rfl)))
    · exact h (.inr (.inr (.inr (.inl ⟨es, rfl, x, hx, hx'⟩))))
  simp only [launchE, hb, Bool.false_eq_true, if_false]

theorem set_later {e : EArg} {c : Code} {s : EArg} (h : Later (e.set c) s) : s = e.set c := by
  rcases h with h | ⟨c', h⟩
  · exact h
  · rw [h]; rcases e with _ | _ | _ <;> rfl

/-- **A photon outside is reported**: whenever -2 is returned, an empty error variable holds INVALID_ARGUMENT afterwards. -/
theorem launch_outside_reports (lib : Xray α) (D : Option (Descr α)) (leak : Bool) (fuel k : Nat) (P : Option (Photon α))
    (energies : Option (List α)) (wptr : Bool) (o : WOut α) (P' : Option (Photon α)) (s : EArg)
    (h : launchE lib D leak fuel k P energies wptr (some none) = .ok ((-2, o, P'), s)) :
    s = some (some .invalidArgument) := by
  by_cases hb : ArgsBad D P energies wptr
  · obtain ⟨P'', h'⟩ := launch_refusal_reports lib D leak fuel k P energies wptr hb
    rw [h'] at h
    simp at h
  · obtain ⟨D', P'', es, rfl, rfl, rfl, -, -, rfl, -⟩ := launch_valid lib D leak fuel k P energies wptr hb
    have hv := launchBodyE_value lib D' leak fuel k P'' es (some none)
    rw [launchE_valid _ _ _ _ _ _ _ _ hb, Out.bind_eq_ok] at h
    obtain ⟨⟨⟨c', o', Q⟩, s'⟩, hx, h⟩ := h
    rw [hx] at hv
    simp only [Out.ok.injEq, Prod.mk.injEq] at h
    obtain ⟨⟨rfl, rfl, rfl⟩, rfl⟩ := h
    have hl := (launchBodyE_keeps lib D' leak fuel k P'' es (some none)).later _ hx
    have hcap : launchCap D' P''.startC = none := by
      cases launchBody_ended _ _ _ _ _ _ _ _ _ _ hv.symm with
      | outside hc => exact hc
      | within qr hc _ _ _ _ w _ c o P' hy =>
        have := launchWall_codes _ _ _ _ _ _ _ _ _ hy
        omega
      | inside qr hc _ c o P' hy =>
        obtain ⟨iesc, ix, Q, -, hcs, k1, k2, k3, -⟩ := launchInside_inv _ _ _ _ _ _ _ _ _ hy
        omega
    have he : launchCapE D' P''.startC (report (some none) (scatfRejects D' es)) = EArg.set (some none) .invalidArgument := by
      unfold launchCapE
      rw [hcap]
      simp only [Option.isNone_none]
      unfold boundaryE
      cases scatfRejects D' es <;> cases (launchExt D'.prof P''.startC.z <=. lit 0) <;> split <;> rfl
    rw [he] at hl
    exact set_later hl

/-- **A composition the scattering-factor calculation refuses is reported** whatever the launch then returns. -/
theorem launch_composition_reports (lib : Xray α) (D : Descr α) (leak : Bool) (fuel k : Nat) (P : Photon α)
    (es : List α) (hr : scatfRejects D es = true) (c : Int) (o : WOut α) (P' : Option (Photon α)) (s : EArg)
    (h : launchE lib (some D) leak fuel k (some P) (some es) true (some none) = .ok ((c, o, P'), s)) :
    s = some (some .invalidArgument) := by
  by_cases hb : ArgsBad (some D) (some P) (some es) true
  · obtain ⟨P'', h'⟩ := launch_refusal_reports lib (some D) leak fuel k (some P) (some es) true hb
    rw [h'] at h
    injection h with h; injection h with h1 h2; exact h2.symm
  · rw [launchE_valid _ _ _ _ _ _ _ _ hb, Out.bind_eq_ok] at h
    obtain ⟨⟨⟨c', o', Q⟩, s'⟩, hx, h⟩ := h
    simp only [Out.ok.injEq, Prod.mk.injEq] at h
    obtain ⟨-, rfl⟩ := h
    have hl := (launchBodyE_keeps lib D leak fuel k P es (some none)).later _ hx
    have hl := (launchCapE_keeps D P.startC (report (some none) (scatfRejects D es))).trans hl
    rw [hr] at hl
    exact set_later (e := some none) hl

end generic

/-! ## Without leak calculation, over the reals: the slot of every step -/

/-- one error was put into the slot (if it was empty) -/
def Put (e s : EArg) : Prop := ∃ c, s = e.set c

theorem Put.later {e s t : EArg} (h : Put e s) (l : Later s t) : Put e t := by
  obtain ⟨c, rfl⟩ := h
  exact ⟨c, set_later l⟩

theorem report_false (e : EArg) {b : Bool} (h : b = false) : report e b = e := by rw [h]; rfl
theorem report_true (e : EArg) {b : Bool} (h : b = true) : Put e (report e b) := by rw [h]; exact ⟨_, rfl⟩
theorem boundaryE_pos {r : ℝ} (h : 0 < r) (e : EArg) : boundaryE r e = e :=
  report_false e (by simp only [real_le, real_lit, Rat.cast_zero, decide_eq_false_iff_not, not_le]; exact h)

/-- a profile whose capillaries have non-negative and whose optic has positive radii -/
structure Radii (p : Profile ℝ) : Prop where
  cap : ∀ i ≤ p.nmax, 0 ≤ p.cap i
  ext : ∀ i ≤ p.nmax, 0 < p.ext i

theorem Grid.z_nonneg {p : Profile ℝ} (g : Grid p) {i : Nat} (hi : i ≤ p.nmax) : 0 ≤ p.z i := by
  rw [← g.start]; exact mono_of_step g.inc (Nat.zero_le i) hi

theorem search_put (D : Descr ℝ) (capx capy : Nat → ℝ) (P : Photon ℝ) : ∀ (k i : Nat) (cur nrm : V3 ℝ) (e : EArg),
    traceSearch D capx capy P k i cur nrm = .ret (-1) → Put e (traceSearchE D capx capy P k i cur nrm e).2 := by
  intro k
  induction k with
  | zero => intro i cur nrm e h; simp [traceSearch] at h
  | succ k ih =>
    intro i cur nrm e h
    unfold traceSearch at h
    unfold traceSearchE
    simp only at h ⊢
    split at h
    · next hb => rw [if_pos hb]; exact ⟨_, rfl⟩
    · next hb =>
      rw [if_neg hb]
      have hl : Later e (boundaryE (D.prof.ext i) (report e
          (segRejects (⟨capx i, capy i, D.prof.z i⟩ : V3 ℝ) ⟨capx (i + 1), capy (i + 1), D.prof.z (i + 1)⟩ (D.prof.cap i)
            (D.prof.cap (i + 1)) (atGrid D.prof P.exitC P.exitD i) (atGrid D.prof P.exitC P.exitD (i + 1)) P.exitD))) :=
        (later_report ..).trans (later_boundary ..)
      generalize report e _ = e1 at hl ⊢
      generalize segment (⟨capx i, capy i, D.prof.z i⟩ : V3 ℝ) ⟨capx (i + 1), capy (i + 1), D.prof.z (i + 1)⟩ (D.prof.cap i)
        (D.prof.cap (i + 1)) (atGrid D.prof P.exitC P.exitD i) (atGrid D.prof P.exitC P.exitD (i + 1)) P.exitD cur nrm = s at h ⊢
      obtain ⟨s1, s2, s3⟩ := s
      simp only at h ⊢
      generalize (if (acos (scalar s3 P.exitD) >. mpi /. lit 2 || acos (scalar s3 P.exitD) <. lit 0) = true then (-5 : Int) else s1) = ie
        at h ⊢
      by_cases h1 : ie = 1
      · rw [if_pos h1] at h
        exfalso
        revert h
        repeat' first | (intro h; injection h with h; omega) | (intro h; injection h) | split
      · rw [if_neg h1] at h ⊢
        split at h
        · injection h with h; omega
        · next h2 =>
          rw [if_neg h2]
          obtain ⟨c, hc⟩ := ih _ _ _ (boundaryE (D.prof.ext i) e1) h
          rw [hc]
          rcases hl with hl | ⟨c', hl⟩
          · rw [hl]; exact ⟨c, rfl⟩
          · rw [hl]; exact ⟨c', set_later (.inr ⟨c, rfl⟩)⟩

/-- a photon not moving upstream: nothing is reported by the search unless it ends with -1 -/
theorem search_quiet (D : Descr ℝ) (g : Grid D.prof) (hr : Radii D.prof) (capx capy : Nat → ℝ) (P : Photon ℝ) (hd : 0 ≤ P.exitD.z) :
    ∀ (k i : Nat) (cur nrm : V3 ℝ) (e : EArg), i + k ≤ D.prof.nmax → traceSearch D capx capy P k i cur nrm ≠ .ret (-1) →
      (traceSearchE D capx capy P k i cur nrm e).2 = e := by
  intro k
  induction k with
  | zero => intro i cur nrm e _ _; rfl
  | succ k ih =>
    intro i cur nrm e hk h
    have hrej : segRejects (⟨capx i, capy i, D.prof.z i⟩ : V3 ℝ) ⟨capx (i + 1), capy (i + 1), D.prof.z (i + 1)⟩ (D.prof.cap i)
        (D.prof.cap (i + 1)) (atGrid D.prof P.exitC P.exitD i) (atGrid D.prof P.exitC P.exitD (i + 1)) P.exitD = false :=
      segRejects_false.mpr ⟨g.z_nonneg (by omega), g.z_nonneg (by omega), hr.cap _ (by omega), hr.cap _ (by omega), hd, rfl, rfl,
        g.inc i (by omega)⟩
    unfold traceSearch at h
    unfold traceSearchE
    simp only [report_false _ hrej, boundaryE_pos (hr.ext i (by omega))] at h ⊢
    split
    · next hb => rw [if_pos hb] at h; simp at h
    · next hb =>
      rw [if_neg hb] at h
      generalize hs : segment (⟨capx i, capy i, D.prof.z i⟩ : V3 ℝ) ⟨capx (i + 1), capy (i + 1), D.prof.z (i + 1)⟩ (D.prof.cap i)
        (D.prof.cap (i + 1)) (atGrid D.prof P.exitC P.exitD i) (atGrid D.prof P.exitC P.exitD (i + 1)) P.exitD cur nrm = s at h ⊢
      obtain ⟨s1, s2, s3⟩ := s
      simp only at h ⊢
      generalize hie : (if (acos (scalar s3 P.exitD) >. mpi /. lit 2 || acos (scalar s3 P.exitD) <. lit 0) = true then (-5 : Int) else s1) = ie
        at h ⊢
      by_cases h1 : ie = 1
      · rw [if_pos h1]
        have h1' : s1 = 1 := by
          rw [← hie] at h1
          by_cases hg : (acos (scalar s3 P.exitD) >. mpi /. lit 2 || acos (scalar s3 P.exitD) <. lit 0) = true
          · rw [if_pos hg] at h1; omega
          · rw [if_neg hg] at h1; exact h1
        subst h1'
        obtain ⟨-, -, v1, v2, -⟩ := segment_success hs
        have hpos : 0 < interp (D.prof.z (i + 1)) (D.prof.z i) (D.prof.ext (i + 1)) (D.prof.ext i) s2.z := by
          rw [linAt_interp]
          have := linAt_pos (hr.ext i (by omega)) (hr.ext (i + 1) (by omega)) (g.inc i (by omega)) v2 v1
          have hzz : D.prof.z (i + 1) - D.prof.z i ≠ 0 := by have := g.inc i (by omega); linarith
          refine lt_of_lt_of_eq this ?_
          unfold linAt
          have hzz' : D.prof.z i - D.prof.z (i + 1) ≠ 0 := by have := g.inc i (by omega); linarith
          field_simp
          ring
        simp only [boundaryE_pos hpos]
        repeat' first | rfl | split
      · rw [if_neg h1] at h ⊢
        split
        · rfl
        · next h2 =>
          rw [if_neg h2] at h
          exact ih _ _ _ _ (by omega) h

/-- a reported rejection inside `polycap_refl_polar` is a reflectivity of -1 -/
theorem reflPolar_quiet (en density scatf mu : ℝ) (norm dir E ev : V3 ℝ) (e : EArg)
    (h : ¬ (reflPolar en density scatf mu norm dir E ev).1 < 0) : reflPolarE en density scatf mu norm dir e = e := by
  refine report_false e ?_
  by_contra hb
  apply h
  unfold reflPolar
  have e1 : ((-1:ℚ):ℝ) = -1 := by norm_num
  split
  · simp only [real_lit, e1]; norm_num
  · next hp =>
    rw [Bool.not_eq_true] at hp
    simp only
    rw [if_pos (by rw [hp] at hb; simpa using hb)]
    simp only [real_lit, e1]; norm_num

theorem reflEnergies_slot (D : Descr ℝ) (norm dir : V3 ℝ) (alfa : ℝ) (leak : Bool) (d : ℝ) : ∀ (cs : List (Chan ℝ)) (E ev : V3 ℝ) (e : EArg),
    if (reflEnergies D norm dir alfa leak d cs E ev).ok then reflEnergiesE D norm dir cs E ev e = e
    else Put e (reflEnergiesE D norm dir cs E ev e)
  | [], E, ev, e => by simp [reflEnergies, reflEnergiesE]
  | c :: cs, E, ev, e => by
    unfold reflEnergies reflEnergiesE
    simp only
    by_cases hb : ((reflPolar c.e D.density c.scatf c.amu norm dir E ev).1 <. lit 0 ||
        (reflPolar c.e D.density c.scatf c.amu norm dir E ev).1 >. lit 1) = true
    · rw [if_pos hb, if_pos hb]
      simp only [Bool.false_eq_true, if_false]
      rcases later_report e (polarRejects c.e D.density c.scatf c.amu || acos (scalar (normIfNot1 norm) dir) <. lit 0) with h | ⟨c', h⟩
      · exact ⟨.io, by unfold reflPolarE; rw [h]⟩
      · exact ⟨c', by unfold reflPolarE; rw [h]; exact set_later (.inr ⟨_, rfl⟩)⟩
    · rw [if_neg hb, if_neg hb]
      simp only
      have h0 : ¬ (reflPolar c.e D.density c.scatf c.amu norm dir E ev).1 < 0 := by
        intro h0; apply hb
        simp only [real_lt, real_lit, Rat.cast_zero, h0, decide_true, Bool.true_or]
      rw [reflPolar_quiet _ _ _ _ _ _ _ _ _ h0]
      exact reflEnergies_slot D norm dir alfa leak d cs _ _ e

/-- **A reflection without leak calculation** reports an error exactly when it fails. -/
theorem reflect_slot (D : Descr ℝ) (fuel k : Nat) (n : V3 ℝ) (P : Photon ℝ) (e : EArg) (c : Int) (P' : Photon ℝ) (s : EArg)
    (h : reflectE D false fuel (k + 1) n P e = .ok ((c, P'), s)) : (c = -1 ∧ Put e s) ∨ ((c = 0 ∨ c = 1) ∧ s = e) := by
  unfold reflectE reflectBodyE at h
  simp only at h
  split at h
  · injection h with h; injection h with h1 h2; injection h1 with h1 h3
    exact .inl ⟨h1.symm, _, h2.symm⟩
  · simp only [wallOfE, Bool.false_eq_true, if_false, Out.bind_ok] at h
    unfold reflectRestE at h
    simp only at h
    rw [if_neg (by simp)] at h
    split at h
    · simp at h
    generalize renorm false { P with exitD := vnorm P.exitD } = Q at h
    have hs := reflEnergies_slot D (vnorm n) Q.exitD (scalar (vnorm P.exitD) (vnorm n)) false (lit 0 : ℝ) Q.chans Q.exitE Q.exitE e
    have hf := (reflEnergies_shape D (vnorm n) Q.exitD
      (scalar (vnorm P.exitD) (vnorm n)) false (lit 0 : ℝ) Q.chans Q.exitE Q.exitE).2.2 rfl
    split at h
    · next hok =>
      injection h with h; injection h with h1 h2; injection h1 with h1 h3
      refine .inl ⟨h1.symm, ?_⟩
      rw [if_neg (by simpa using hok)] at hs
      rw [← h2]; exact hs
    · next hok =>
      rw [if_pos (by simpa using hok)] at hs
      rw [if_neg (by rw [Bool.not_eq_true]; exact hf)] at h
      injection h with h; injection h with h1 h2; injection h1 with h1 h3
      refine .inr ⟨?_, h2.symm.trans hs⟩
      rw [← h1]; split <;> simp

/-- Somewhere along its current line the photon is taken to be outside the optic of radius `R` (at that height): outside the hexagon, or –
with up to 3 capillaries, which count as a monocapillary – with `x²+y²` or its root not below `R`.  The place may lie behind the photon, but
not before the profile point it has passed last. -/
def LeftOptic (D : Descr ℝ) (c d : V3 ℝ) : Prop :=
  ∃ z R, (∀ j < D.prof.nmax, D.prof.z j ≤ c.z → D.prof.z j ≤ z) ∧ ValueAt D.prof D.prof.ext z R ∧
    (¬ InHex R (lineAt c d z).x (lineAt c d z).y ∨
      D.n_cap ≤ 3 ∧ (R ≤ Real.sqrt ((lineAt c d z).x ^ 2 + (lineAt c d z).y ^ 2) ∨ R ≤ (lineAt c d z).x ^ 2 + (lineAt c d z).y ^ 2))

theorem boundary_zero {r x y : ℝ} (h : withinPcBoundary r x y = 0) : ¬ InHex r x y := by
  intro hi
  obtain ⟨b1, b2, b3⟩ := boundary_spec r x y
  rcases le_or_gt r 0 with hr | hr
  · rw [b1 hr] at h; omega
  · rw [b2 hr hi] at h; omega

theorem valueAt_grid {p : Profile ℝ} (g : Grid p) (v : Nat → ℝ) {i : Nat} (hi : i < p.nmax) : ValueAt p v (p.z i) (v i) :=
  ⟨i, hi, le_refl _, (g.inc i hi).le, by unfold linAt; simp⟩

/-- no profile point after the `ix`th has been passed by a photon at `c` -/
def Passed (p : Profile ℝ) (c : V3 ℝ) (ix : Nat) : Prop := ∀ j < p.nmax, p.z j ≤ c.z → j ≤ ix

theorem passed_segId (p : Profile ℝ) (c : V3 ℝ) (init n : Nat) (hn : p.nmax ≤ n) : Passed p c (segIdFrom p.z init c.z n) := by
  intro j hj hz
  rcases segId_spec p.z init c.z n with ⟨-, -, h⟩ | ⟨-, h⟩
  · by_contra hlt
    have := h j (by omega) (by omega)
    simp only [real_le, decide_eq_false_iff_not] at this
    exact this hz
  · have := h j (by omega)
    simp only [real_le, decide_eq_false_iff_not] at this
    exact absurd hz this

/-- the search gives up with -3 only where the photon's line is outside the optic -/
theorem search_left (D : Descr ℝ) (hn : 1 ≤ D.n_cap) (g : Grid D.prof) (capx capy : Nat → ℝ) (P : Photon ℝ) :
    ∀ (k i : Nat) (cur nrm : V3 ℝ), i + k ≤ D.prof.nmax → dot P.exitD P.exitD = 1 → Passed D.prof P.exitC i →
      traceSearch D capx capy P k i cur nrm = .ret (-3) → LeftOptic D P.exitC P.exitD := by
  intro k
  induction k with
  | zero => intro i cur nrm _ _ _ h; simp [traceSearch] at h
  | succ k ih =>
    intro i cur nrm hk hu hpass h
    have hlast : ∀ j < D.prof.nmax, D.prof.z j ≤ P.exitC.z → D.prof.z j ≤ D.prof.z i := fun j hj hz =>
      mono_of_step g.inc (hpass j hj hz) (by omega)
    unfold traceSearch at h
    simp only at h
    split at h
    · injection h with h; omega
    generalize hs : segment (⟨capx i, capy i, D.prof.z i⟩ : V3 ℝ) ⟨capx (i + 1), capy (i + 1), D.prof.z (i + 1)⟩ (D.prof.cap i)
      (D.prof.cap (i + 1)) (atGrid D.prof P.exitC P.exitD i) (atGrid D.prof P.exitC P.exitD (i + 1)) P.exitD cur nrm = s at h
    obtain ⟨s1, v, s3⟩ := s
    simp only at h
    generalize hie : (if (acos (scalar s3 P.exitD) >. mpi /. lit 2 || acos (scalar s3 P.exitD) <. lit 0) = true then (-5 : Int) else s1) = ie
      at h
    by_cases h1 : ie = 1
    · rw [if_pos h1] at h
      have h1' : s1 = 1 := by
        rw [← hie] at h1
        by_cases hg : (acos (scalar s3 P.exitD) >. mpi /. lit 2 || acos (scalar s3 P.exitD) <. lit 0) = true
        · rw [if_pos hg] at h1; omega
        · rw [if_neg hg] at h1; exact h1
      subst h1'
      obtain ⟨hr, -, v1, v2, -, h3, hx, hy, -⟩ := segment_success hs
      obtain ⟨-, -, -, -, g5, -⟩ := segRejects_false.mp hr
      have hz : (atGrid D.prof P.exitC P.exitD i).z = D.prof.z i := rfl
      rw [vnorm_unit _ hu] at h3 hx hy
      have hdz : 0 < P.exitD.z := by
        rcases eq_or_lt_of_le g5 with h0 | h0
        · rw [← h0, div_zero] at h3; norm_num at h3
        · exact h0
      have hline : v = lineAt P.exitC P.exitD v.z := by
        have e1 : (atGrid D.prof P.exitC P.exitD i).x = P.exitC.x + P.exitD.x * (D.prof.z i - P.exitC.z) / P.exitD.z := rfl
        have e2 : (atGrid D.prof P.exitC P.exitD i).y = P.exitC.y + P.exitD.y * (D.prof.z i - P.exitC.z) / P.exitD.z := rfl
        rw [e1, hz] at hx
        rw [e2, hz] at hy
        have hzz := hdz.ne'
        cases v with
        | mk vx vy vz =>
          simp only [lineAt, V3.mk.injEq, and_true] at hx hy ⊢
          constructor
          · rw [hx]; field_simp; ring
          · rw [hy]; field_simp; ring
      have hval : ValueAt D.prof D.prof.ext v.z (interp (D.prof.z (i + 1)) (D.prof.z i) (D.prof.ext (i + 1)) (D.prof.ext i) v.z) := by
        refine ⟨i, by omega, v2, v1, ?_⟩
        rw [linAt_interp]
        have hzz : D.prof.z (i + 1) - D.prof.z i ≠ 0 := by have := g.inc i (by omega); linarith
        have hzz' : D.prof.z i - D.prof.z (i + 1) ≠ 0 := by have := g.inc i (by omega); linarith
        unfold linAt
        field_simp
        ring
      generalize interp (D.prof.z (i + 1)) (D.prof.z i) (D.prof.ext (i + 1)) (D.prof.ext i) v.z = R at h hval
      refine ⟨v.z, R, fun j hj hz => (hlast j hj hz).trans v2, hval, ?_⟩
      rw [← hline]
      split at h
      · next hm =>
        refine .inr ⟨(nShells_zero_iff D.n_cap hn).mp hm, .inl ?_⟩
        split at h
        · next hge =>
          simp only [ge, real_le, real_sqrt, real_mul, real_add, decide_eq_true_eq] at hge
          rw [pow_two, pow_two]; exact hge
        · injection h
      · split at h
        · next hb => exact .inl (boundary_zero hb)
        · injection h
    · rw [if_neg h1] at h
      split at h
      · next hb =>
        refine ⟨D.prof.z i, D.prof.ext i, hlast, valueAt_grid g _ (by omega), .inl ?_⟩
        have := boundary_zero hb
        rw [atGrid_eq] at this
        simp only [lineAt]
        convert this using 2 <;> ring
      · exact ih _ _ _ (by omega) hu (fun j hj hz => (hpass j hj hz).trans (by omega)) h

/-- What one call of the tracing function does to the error slot. -/
structure TraceSlot (D : Descr ℝ) (e : EArg) (c : Int) (P' : Photon ℝ) (s : EArg) : Prop where
  failed : c = -1 → Put e s
  quiet : c = 0 ∨ c = 1 → s = e
  through : c = -2 ∨ c = -3 → s = e ∨ P'.exitD.z < 0
  left : c = -3 → LeftOptic D P'.exitC P'.exitD

theorem trace_slot (D : Descr ℝ) (hn : 1 ≤ D.n_cap) (g : Grid D.prof) (hr : Radii D.prof) (fuel k : Nat) (capx capy : Nat → ℝ) (ix : Nat)
    (P : Photon ℝ) (hz : 0 ≤ P.exitC.z) (hdir : dot P.exitD P.exitD ≠ 0) (hpass : Passed D.prof P.exitC ix) (e : EArg) (c : Int) (ix' : Nat) (P' : Photon ℝ) (s : EArg)
    (h : traceE D false fuel (k + 1) capx capy ix P e = .ok ((c, ix', P'), s)) : TraceSlot D e c P' s := by
  unfold traceE capilTraceE at h
  simp only at h
  have hu := vnorm_dot _ hdir
  generalize hQ : ({ P with exitD := vnorm P.exitD, startD := vnorm P.startD } : Photon ℝ) = Q at h
  have q1 : Q.exitC = P.exitC := by rw [← hQ]
  have q2 : Q.exitD = vnorm P.exitD := by rw [← hQ]
  rw [← q2] at hu
  rw [← q1] at hz
  have hk : traceSearch D capx capy Q (D.prof.nmax - ix) ix P.exitC ⟨lit 0, lit 0, lit 0⟩ = .miss ∨ ix + (D.prof.nmax - ix) ≤ D.prof.nmax := by
    by_cases hi : ix ≤ D.prof.nmax
    · exact .inr (by omega)
    · left; rw [Nat.sub_eq_zero_of_le (by omega)]; rfl
  have hv := traceSearchE_value D capx capy Q (D.prof.nmax - ix) ix P.exitC ⟨lit 0, lit 0, lit 0⟩ e
  have hq : 0 ≤ Q.exitD.z → traceSearch D capx capy Q (D.prof.nmax - ix) ix P.exitC ⟨lit 0, lit 0, lit 0⟩ ≠ .ret (-1) →
      (traceSearchE D capx capy Q (D.prof.nmax - ix) ix P.exitC ⟨lit 0, lit 0, lit 0⟩ e).2 = e := by
    intro h0 h1
    by_cases hi : ix ≤ D.prof.nmax
    · exact search_quiet D g hr capx capy Q h0 _ _ _ _ _ (by omega) h1
    · rw [Nat.sub_eq_zero_of_le (by omega)]; rfl
  have hp := search_put D capx capy Q (D.prof.nmax - ix) ix P.exitC ⟨lit 0, lit 0, lit 0⟩ e
  have hl := search_left D hn g capx capy Q (D.prof.nmax - ix) ix P.exitC ⟨lit 0, lit 0, lit 0⟩
  generalize traceSearchE D capx capy Q (D.prof.nmax - ix) ix P.exitC ⟨lit 0, lit 0, lit 0⟩ e = x at h hv hq hp
  obtain ⟨x1, x2⟩ := x
  simp only at h hv hq hp
  cases hx : x1 with
  | ret code =>
    rw [hx] at h hv
    injection h with h; injection h with h1 h2; injection h1 with h1 h3; injection h3 with h3 h4; subst h1 h2 h4
    rw [← hv] at hq hp hl hk
    simp only [Hit.ret.injEq, reduceCtorEq, false_or] at hq hp hl hk
    have hcode := traceSearch_ret D capx capy Q _ _ _ _ _ hv.symm
    refine ⟨fun hc => hp hc, fun hc => by omega, fun hc => ?_, fun hc => hl hk hu (q1 ▸ hpass) hc⟩
    rcases le_or_gt 0 Q.exitD.z with h0 | h0
    · exact .inl (hq h0 (by rcases hc with hc | hc <;> simp [hc]))
    · exact .inr h0
  | miss =>
    rw [hx] at h hv
    injection h with h; injection h with h1 h2; injection h1 with h1 h3; injection h3 with h3 h4; subst h1 h2 h4
    refine ⟨fun hc => by omega, fun hc => by omega, fun hc => ?_, fun hc => by omega⟩
    rcases le_or_gt 0 Q.exitD.z with h0 | h0
    · exact .inl (hq h0 (by rw [← hv]; simp))
    · exact .inr h0
  | hit j v n ca =>
    rw [hx] at h hv
    have hk := hk.resolve_left (by rw [← hv]; simp)
    obtain ⟨k1, k2, k3, k4, cur, nrm, k5, k6⟩ := traceSearch_hit D capx capy Q _ _ _ _ _ _ _ _ (by rw [q1]) hv.symm
    obtain ⟨hrej, hsv, h1, h2, h2', h3, -, -, hnn⟩ := segment_success k6
    obtain ⟨-, -, -, -, g5, -⟩ := segRejects_false.mp hrej
    have hslot := hq g5 (by rw [← hv]; simp)
    subst hslot
    have hn1 : dot n n = 1 := by
      rw [hnn] at k3 ⊢
      exact segNormal_unit_of_pos (d := Q.exitD) (by rw [← k3]; exact k4.ne')
    have hca : ca ≤ 1 := by
      have e1 : dot (⟨n.x - Q.exitD.x, n.y - Q.exitD.y, n.z - Q.exitD.z⟩ : V3 ℝ) ⟨n.x - Q.exitD.x, n.y - Q.exitD.y, n.z - Q.exitD.z⟩ =
        dot n n - 2 * dot n Q.exitD + dot Q.exitD Q.exitD := by unfold dot; ring
      have e2 : 0 ≤ dot (⟨n.x - Q.exitD.x, n.y - Q.exitD.y, n.z - Q.exitD.z⟩ : V3 ℝ)
          ⟨n.x - Q.exitD.x, n.y - Q.exitD.y, n.z - Q.exitD.z⟩ := by
        unfold dot
        nlinarith [sq_nonneg (n.x - Q.exitD.x), sq_nonneg (n.y - Q.exitD.y), sq_nonneg (n.z - Q.exitD.z)]
      rw [hn1, hu] at e1
      linarith
    have hvz : 0 ≤ v.z := by
      have : (0:ℝ) < 1 / 10 ^ 5 := by norm_num
      linarith
    have hvz1 : v.z ≤ D.prof.z D.prof.nmax := h1.trans (mono_of_step g.inc (by omega) (le_refl _))
    obtain ⟨a, b, c'⟩ := segment_index_correct D.prof.z D.prof.nmax (j + 1) g.two v.z (by rw [g.start]; exact hvz) hvz1
    have hpos : 0 < interpAt D.prof D.prof.ext (segIdFrom D.prof.z (j + 1) v.z D.prof.nmax) v.z :=
      lt_of_lt_of_le (lt_min (hr.ext _ (by omega)) (hr.ext _ (by omega)))
        (interpolated_radius_between D.prof D.prof.ext (j + 1) g.two g.inc v.z (by rw [g.start]; exact hvz) hvz1).1
    have hval : ValueAt D.prof D.prof.ext v.z (interpAt D.prof D.prof.ext (segIdFrom D.prof.z (j + 1) v.z D.prof.nmax) v.z) :=
      ⟨_, a, b, c', by unfold interpAt; rw [linAt_interp]⟩
    have hself : ∀ d : V3 ℝ, lineAt v d v.z = v := by
      intro d; cases v; simp [lineAt]
    unfold traceHitE at h
    simp only [boundaryE_pos hpos, ite_self] at h
    generalize interpAt D.prof D.prof.ext (segIdFrom D.prof.z (j + 1) v.z D.prof.nmax) v.z = R at h hval hpos
    split at h
    · next hb =>
      exfalso
      simp only [gt, real_lt, real_fabs, real_lit, decide_eq_true_eq, abs_of_pos k4] at hb
      norm_num at hb
      linarith
    split at h
    · simp at h
    split at h
    · next hb =>
      injection h with h; injection h with h1 h2; injection h1 with h1 h3; injection h3 with h3 h4; subst h1 h2 h4
      refine ⟨fun hc => by omega, fun hc => by omega, fun hc => .inl rfl, fun hc => ⟨v.z, R, fun _ _ hz => hz, hval, ?_⟩⟩
      simp only [hself]
      refine .inr ⟨(nShells_zero_iff D.n_cap hn).mp hb.1, .inr ?_⟩
      have := hb.2
      simp only [ge, real_le, real_mul, real_add, decide_eq_true_eq] at this
      rw [pow_two, pow_two]; exact this
    split at h
    · next hb =>
      injection h with h; injection h with h1 h2; injection h1 with h1 h3; injection h3 with h3 h4; subst h1 h2 h4
      refine ⟨fun hc => by omega, fun hc => by omega, fun hc => .inl rfl, fun hc => ⟨v.z, R, fun _ _ hz => hz, hval, ?_⟩⟩
      simp only [hself]
      exact .inl (boundary_zero hb.2)
    rw [Out.bind_eq_ok] at h
    obtain ⟨⟨⟨rc, T⟩, s'⟩, hR, h⟩ := h
    have hslot := reflect_slot D fuel k _ _ _ _ _ _ hR
    injection h with h
    unfold afterReflect at h
    simp only at h
    split at h
    · injection h with h1 h2; injection h1 with h1 h3; injection h3 with h3 h4; subst h1 h2 h4
      refine ⟨fun hc => by omega, fun hc => ?_, fun hc => by omega, fun hc => by omega⟩
      rcases hslot with ⟨hs, -⟩ | ⟨-, hs⟩
      · omega
      · exact hs
    split at h
    · injection h with h1 h2; injection h1 with h1 h3; injection h3 with h3 h4; subst h1 h2 h4
      refine ⟨fun hc => ?_, fun hc => by omega, fun hc => by omega, fun hc => by omega⟩
      rcases hslot with ⟨-, hs⟩ | ⟨hs, -⟩
      · exact hs
      · omega
    · injection h with h1 h2; injection h1 with h1 h3; injection h3 with h3 h4; subst h1 h2 h4
      refine ⟨fun hc => by omega, fun hc => ?_, fun hc => by omega, fun hc => by omega⟩
      rcases hslot with ⟨hs, -⟩ | ⟨-, hs⟩
      · omega
      · exact hs

/-- after a reflection the index is that of the profile segment the photon is in -/
theorem trace_passed (D : Descr ℝ) (leak : Bool) (fuel k : Nat) (capx capy : Nat → ℝ) (ix : Nat) (P : Photon ℝ) (ix' : Nat) (P' : Photon ℝ)
    (h : trace D leak fuel k capx capy ix P = .ok (1, ix', P')) : Passed D.prof P'.exitC ix' := by
  unfold trace capilTrace at h
  simp only at h
  split at h
  · next code hc =>
    injection h with h; injection h with h1 h2; subst h1
    have := traceSearch_ret D capx capy _ _ _ _ _ _ hc
    omega
  · injection h with h; injection h with h1 h2; omega
  · next i v n ca hc =>
    unfold traceHit at h
    simp only at h
    split at h
    · injection h with h; injection h with h1 h2; omega
    split at h
    · simp at h
    split at h
    · injection h with h; injection h with h1 h2; omega
    split at h
    · injection h with h; injection h with h1 h2; omega
    rw [Out.bind_eq_ok] at h
    obtain ⟨⟨rc, T⟩, hR, h⟩ := h
    have hf := reflect_frame D leak fuel k _ _ _ _ hR
    injection h with h
    unfold afterReflect at h
    simp only at h
    split at h
    · injection h with h1 h2; injection h2 with h2 h3; subst h2 h3
      show Passed D.prof T.exitC _
      rw [show T.exitC = v from hf.1.exitC]
      exact passed_segId _ _ _ _ (le_refl _)
    split at h
    · injection h with h1 h2; omega
    · next hne _ => injection h with h1 h2; exact absurd h1 hne

/-- …and the tracing loop -/
theorem traceLoop_slot (D : Descr ℝ) (hn : 1 ≤ D.n_cap) (g : Grid D.prof) (hr : Radii D.prof) (fuel kk : Nat) (capx capy : Nat → ℝ) :
    ∀ (k : Nat) (iesc : Int) (ix : Nat) (P : Photon ℝ) (e : EArg) (c : Int) (ix' : Nat) (P' : Photon ℝ) (s : EArg), 0 ≤ P.exitC.z →
      dot P.exitD P.exitD ≠ 0 → Passed D.prof P.exitC ix → (iesc = 0 ∨ iesc = 1) →
      traceLoopE (traceE D false fuel (kk + 1) capx capy) k iesc ix P e = .ok ((c, ix', P'), s) → TraceSlot D e c P' s := by
  intro k
  induction k with
  | zero =>
    intro iesc ix P e c ix' P' s _ _ _ hi h
    injection h with h; injection h with h1 h2; injection h1 with h1 h3; subst h1 h2
    exact ⟨fun hc => by omega, fun hc => rfl, fun hc => .inl rfl, fun hc => by omega⟩
  | succ k ih =>
    intro iesc ix P e c ix' P' s hz hdir hpass hi h
    unfold traceLoopE at h
    rw [Out.bind_eq_ok] at h
    obtain ⟨⟨⟨c1, ix1, P1⟩, s1⟩, h1, h⟩ := h
    have ht := trace_slot D hn g hr fuel kk capx capy ix P hz hdir hpass e c1 ix1 P1 s1 h1
    simp only at h
    split at h
    · injection h with h; injection h with h1 h2; injection h1 with h1 h3; injection h3 with h3 h4; subst h1 h2 h4
      exact ht
    · next hc =>
      have hc : c1 = 1 := by simpa using hc
      subst hc
      have hs : s1 = e := ht.quiet (.inr rfl)
      subst hs
      have hv := traceE_value D false fuel (kk + 1) capx capy ix P s1
      rw [h1] at hv
      have hm := trace_moved D false fuel (kk + 1) capx capy ix P hdir _ _ _ hv.symm
      cases hm with
      | stay hc => omega
      | hit i n hi hdz hn1 hnd hseg hline hzz hadv ht' hD hr' =>
        refine ih _ _ _ _ _ _ _ _ ?_ ?_ (trace_passed D false fuel (kk + 1) capx capy ix P _ _ hv.symm) (.inr rfl) h
        · have : (0:ℝ) < 1 / 10 ^ 5 := by norm_num
          linarith
        · rw [hD, if_pos rfl, (reflectDir_mirror _ _ (vnorm_dot _ hdir) hn1).2.1]
          norm_num

/-- the launch finds the radius of the optic at the start position -/
theorem launchCapE_quiet {D : Descr ℝ} (g : Grid D.prof) (hr : Radii D.prof) {c : V3 ℝ} (h0 : 0 ≤ c.z) (h1 : c.z ≤ D.prof.z D.prof.nmax)
    {qr : Int × Int} (hc : launchCap D c = some qr) (e : EArg) : launchCapE D c e = e := by
  obtain ⟨i, hi, z0, z1, hv⟩ := launchExt_value g h0 h1
  have hpos : 0 < launchExt D.prof c.z := by
    rw [hv]; exact linAt_pos (hr.ext _ (by omega)) (hr.ext _ (by omega)) (g.inc i hi) z0 z1
  unfold launchCapE
  simp only [boundaryE_pos hpos, hc, ite_self]
  rfl

/-- **C79, without leak calculation** (exact reals): a valid call on an optic with positive radii and a composition the scattering-factor
calculation accepts, for a photon starting between the two ends.  An empty error variable stays empty if 0 or 2 is returned, and if 1 is
returned unless the photon has been turned back upstream; it holds an error if -2 is returned, and if -1 is returned unless the photon
was found outside the optic.  (Codes: 0 absorbed, 1 transmitted, 2 hit glass at the entrance, -2 started outside, -1 failed.) -/
theorem launch_reports_partial (lib : Xray ℝ) (D : Descr ℝ) (hn : 1 ≤ D.n_cap) (g : Grid D.prof) (hr : Radii D.prof) (fuel k : Nat)
    (P : Photon ℝ) (h0 : 0 ≤ P.startC.z) (h1 : P.startC.z ≤ D.prof.z D.prof.nmax) (hdir : dot P.startD P.startD ≠ 0)
    (es : List ℝ) (hs : scatfRejects D es = false) (c : Int) (o : WOut ℝ) (P' : Photon ℝ) (s : EArg)
    (h : launchE lib (some D) false fuel (k + 1) (some P) (some es) true (some none) = .ok ((c, o, some P'), s)) :
    (c = 0 ∨ c = 2 → s = some none) ∧ (c = 1 → s = some none ∨ P'.exitD.z < 0) ∧
      (c = -2 → ∃ code, s = some (some code)) ∧ (c = -1 → (∃ code, s = some (some code)) ∨
        (LeftOptic D P'.exitC P'.exitD ∧ (s = some none ∨ P'.exitD.z < 0))) := by
  obtain ⟨-, -, hes, hb, -⟩ := (scatf_accepts_iff D es).mp hs
  have h2 : c = -2 → s = some (some .invalidArgument) := by
    rintro rfl; exact launch_outside_reports _ _ _ _ _ _ _ _ _ _ _ h
  rw [launchE_valid _ _ _ _ _ _ _ _ (not_argsBad hes hb), Out.bind_eq_ok] at h
  obtain ⟨⟨⟨c', o', Q⟩, s'⟩, hx, h⟩ := h
  simp only [Out.ok.injEq, Prod.mk.injEq, Option.some.injEq] at h
  obtain ⟨⟨rfl, rfl, rfl⟩, rfl⟩ := h
  unfold launchBodyE at hx
  simp only [hs] at hx
  have hst : (launchInit lib D es P).startC = P.startC := rfl
  rw [hst] at hx
  split at hx
  · injection hx with hx; injection hx with hx1 hx2; injection hx1 with hx1 hx3; subst hx1
    exact ⟨fun hc => by omega, fun hc => by omega, fun _ => ⟨_, h2 rfl⟩, fun hc => by omega⟩
  · next qr hq =>
    rw [launchCapE_quiet g hr h0 h1 hq] at hx
    simp only [Bool.false_and, Bool.false_eq_true, if_false] at hx
    split at hx
    · injection hx with hx; injection hx with hx1 hx2; injection hx1 with hx1 hx3; subst hx1 hx2
      exact ⟨fun hc => rfl, fun hc => by omega, fun hc => by omega, fun hc => by omega⟩
    · unfold launchInsideE at hx
      rw [Out.bind_eq_ok] at hx
      obtain ⟨⟨⟨iesc, ix, T⟩, s2⟩, hl, hx⟩ := hx
      have hsl := traceLoop_slot D hn g hr fuel k (axX D qr) (axY D qr) _ _ _ (launchInit lib D es P) _ _ _ _ _ (by exact h0)
        (by exact (show dot (vnorm (vnorm P.startD)) (vnorm (vnorm P.startD)) ≠ 0 by rw [(dot_pos_of_ne hdir).1]; norm_num)) (passed_segId D.prof P.startC 0 (D.prof.nmax + 1) (by omega)) (.inl rfl) hl
      have hv := traceLoopE_value (fun ix P e => traceE_value D false fuel (k + 1) (axX D qr) (axY D qr) ix P e) (D.prof.nmax + 1) 0
        (segIdFrom D.prof.z 0 P.startC.z (D.prof.nmax + 1)) (launchInit lib D es P) (report (some none) false)
      rw [hst] at hl
      rw [hl] at hv
      have hcs := traceLoop_codes D false fuel (k + 1) _ _ _ _ _ _ _ _ _ (by simp) hv.symm
      injection hx with hx; injection hx with hx1 hx2; injection hx1 with hx1 hx3; injection hx3 with hx3 hx4
      simp only at hx1 hx2 hx4
      subst hx2 hx4
      obtain ⟨t1, t2, t3, t4⟩ := hsl
      refine ⟨fun hc => ?_, fun hc => ?_, fun hc => ?_, fun hc => ?_⟩
      · exact t2 (by rcases hcs with h | h | h | h | h <;> simp [h] at hx1 <;> omega)
      · by_cases h1 : iesc = 1
        · exact .inl (t2 (.inr h1))
        · exact t3 (by rcases hcs with h | h | h | h | h <;> simp [h] at hx1 <;> omega)
      · rcases hcs with h | h | h | h | h <;> simp [h] at hx1 <;> omega
      · by_cases h1 : iesc = -1
        · left
          obtain ⟨code, hcode⟩ := t1 h1
          exact ⟨code, hcode⟩
        · have h3 : iesc = -3 := by rcases hcs with h | h | h | h | h <;> simp [h] at hx1 <;> omega
          exact .inr ⟨t4 h3, t3 (.inr h3)⟩

end Polycap
