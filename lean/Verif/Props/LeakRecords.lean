import Verif.Props.LeakShape
import Verif.Props.WeightProps
import Verif.Props.GetterProps
import Verif.Props.Zigzag
import Verif.Props.LaunchFindings

/-!
# Recorded leak events are well formed (C73)

Over the reals.
-/
namespace Polycap
open CNum

/-- What a user may expect of one recorded leak event of a photon started at height `z0`: a unit direction that
points downstream, a reflection count, a position not above the start, and at least one energy of which
a fraction of `1e-4` or more is left. -/
structure LeakOk (z0 : ℝ) (l : Leak ℝ) : Prop where
  unit : l.dir.x ^ 2 + l.dir.y ^ 2 + l.dir.z ^ 2 = 1
  down : 0 ≤ l.dir.z
  refl : 0 ≤ l.n_refl
  pos : z0 ≤ l.coords.z
  weight : ∃ w ∈ l.weight, 1 / 10 ^ 4 ≤ w

/-- The photon in flight: a direction, a reflection count, a position not above the start, well formed leaks. -/
structure FlightOk (z0 : ℝ) (P : Photon ℝ) : Prop where
  dir : dot P.exitD P.exitD ≠ 0
  refl : 0 ≤ P.i_refl
  pos : z0 ≤ P.exitC.z
  ext : ∀ l ∈ P.ext, LeakOk z0 l
  int : ∀ l ∈ P.int, LeakOk z0 l

theorem dot_one_sq {v : V3 ℝ} (h : dot v v = 1) : v.x ^ 2 + v.y ^ 2 + v.z ^ 2 = 1 := by
  unfold dot at h; nlinarith [h]

theorem alive_real {c : Chan ℝ} : alive c ↔ 1 / 10 ^ 4 ≤ c.w := by
  unfold alive; simp

theorem ok_snoc {z0 : ℝ} {ls : List (Leak ℝ)} (h : ∀ l ∈ ls, LeakOk z0 l) {lk : Leak ℝ} (hk : LeakOk z0 lk) :
    ∀ l ∈ ls ++ [lk], LeakOk z0 l := by
  intro l hl
  rcases List.mem_append.1 hl with hl | hl
  · exact h l hl
  · simp only [List.mem_singleton] at hl; subst hl; exact hk

theorem ok_append {z0 : ℝ} {ls ms : List (Leak ℝ)} (h : ∀ l ∈ ls, LeakOk z0 l) (g : ∀ l ∈ ms, LeakOk z0 l) :
    ∀ l ∈ ls ++ ms, LeakOk z0 l := by
  intro l hl
  rcases List.mem_append.1 hl with hl | hl
  · exact h l hl
  · exact g l hl

/-- the leak flag means what it says -/
theorem reflEnergies_leakFlag (D : Descr ℝ) (norm dir : V3 ℝ) (alfa : ℝ) (leak : Bool) (d : ℝ) :
    ∀ (cs : List (Chan ℝ)) (E ev : V3 ℝ), (reflEnergies D norm dir alfa leak d cs E ev).leakFlag = true →
      ∃ w ∈ (reflEnergies D norm dir alfa leak d cs E ev).wl, (1:ℝ) / 10 ^ 4 ≤ w := by
  intro cs
  induction cs with
  | nil => intro E ev h; simp [reflEnergies] at h
  | cons c cs ih =>
    intro E ev h
    unfold reflEnergies at h ⊢
    simp only at h ⊢
    split at h
    · simp at h
    · rename_i hr
      rw [if_neg hr]
      simp only at h ⊢
      rw [Bool.or_eq_true, Bool.and_eq_true] at h
      rcases h with h | h
      · exact ⟨_, List.mem_cons_self, by simpa using h.2⟩
      · obtain ⟨w, hw, hle⟩ := ih _ _ h
        exact ⟨w, List.mem_cons_of_mem _ hw, hle⟩

theorem along_z (c d : V3 ℝ) (t : ℝ) (ht : 0 ≤ t) (hd : 0 ≤ d.z) : c.z ≤ (along c d t).z := by
  have : (along c d t).z = c.z + t / Real.sqrt (scalar d d) * d.z := rfl
  rw [this]
  have : 0 ≤ t / Real.sqrt (scalar d d) * d.z := mul_nonneg (div_nonneg ht (Real.sqrt_nonneg _)) hd
  linarith

theorem toExit_z (p : Profile ℝ) (c d : V3 ℝ) : (toExit p c d).z = p.z p.nmax ∨ (toExit p c d).z = c.z := by
  have : (toExit p c d).z = c.z + d.z * ((p.z p.nmax - c.z) / d.z) := rfl
  rw [this]
  by_cases h : d.z = 0
  · right; simp [h]
  · left; field_simp; ring

theorem photonNew_fields {c d E : V3 ℝ} {T : Photon ℝ} (h : photonNew c d E = some T) :
    T.ext = [] ∧ T.int = [] ∧ T.exitC = c ∧ T.exitD = d ∧ T.chans = [] := by
  unfold photonNew at h
  split at h
  · simp at h
  split at h
  · simp at h
  · injection h with h; subst h; exact ⟨rfl, rfl, rfl, rfl, rfl⟩

/-- one call of the tracing function keeps the flight -/
def TraceOk (z0 : ℝ) (tr : Nat → Photon ℝ → Out (Int × Nat × Photon ℝ)) : Prop :=
  ∀ ix P c ix' P', tr ix P = .ok (c, ix', P') → FlightOk z0 P → FlightOk z0 P'

theorem traceLoop_ok {z0 : ℝ} {tr : Nat → Photon ℝ → Out (Int × Nat × Photon ℝ)} (htr : TraceOk z0 tr) :
    ∀ (k : Nat) (iesc : Int) (ix : Nat) (P : Photon ℝ) (x), traceLoop tr k iesc ix P = .ok x → FlightOk z0 P → FlightOk z0 x.2.2 := by
  intro k
  induction k with
  | zero => intro iesc ix P x hx hP; simp only [traceLoop] at hx; injection hx with hx; subst hx; exact hP
  | succ k ih =>
    intro iesc ix P x hx hP
    unfold traceLoop at hx
    rw [Out.bind_eq_ok] at hx
    obtain ⟨⟨c, i, Q⟩, hy, hx⟩ := hx
    have h1 := htr _ _ _ _ _ hy hP
    split at hx
    · injection hx with hx; subst hx; exact h1
    · exact ih _ _ _ _ hx h1

theorem zip_alive : ∀ {cs : List (Chan ℝ)} {wl : List ℝ}, wl.length = cs.length → (∃ w ∈ wl, (1:ℝ) / 10 ^ 4 ≤ w) →
    ∃ ch ∈ List.zipWith (fun c w => { c with w := w }) cs wl, alive (α := ℝ) ch
  | [], [], _, ⟨w, hw, _⟩ => by simp at hw
  | c :: cs, w :: wl, hl, ⟨x, hx, hle⟩ => by
    rcases List.mem_cons.1 hx with rfl | hx
    · exact ⟨_, List.mem_cons_self, alive_real.2 hle⟩
    · obtain ⟨ch, hch, ha⟩ := zip_alive (cs := cs) (wl := wl) (by simpa using hl) ⟨x, hx, hle⟩
      exact ⟨ch, List.mem_cons_of_mem _ hch, ha⟩

theorem alive_weights {cs : List (Chan ℝ)} (h : ∃ ch ∈ cs, alive ch) : ∃ w ∈ cs.map (·.w), (1:ℝ) / 10 ^ 4 ≤ w := by
  obtain ⟨ch, h1, h2⟩ := h
  exact ⟨ch.w, List.mem_map.2 ⟨ch, h1, rfl⟩, alive_real.1 h2⟩

theorem reflectLeak_ok {z0 : ℝ} (D : Descr ℝ) (leak : Bool) (fuel k : Nat)
    (htr : ∀ q r, TraceOk z0 (trace D leak fuel k (capxOf D q r) (capyOf D q r))) (P : Photon ℝ) (w : Wall ℝ) (wl : List ℝ)
    (iesc c : Int) (P' : Photon ℝ) (hwl : wl.length = P.chans.length) (hw : ∃ x ∈ wl, (1:ℝ) / 10 ^ 4 ≤ x) (hd : 0 ≤ w.d)
    (hu : dot P.exitD P.exitD = 1) (hz : 0 ≤ P.exitD.z) (hP : FlightOk z0 P)
    (h : reflectLeak D (fun q r ix T => trace D leak fuel k (capxOf D q r) (capyOf D q r) ix T) P w wl iesc = .ok (c, P')) :
    FlightOk z0 P' := by
  have hlc := along_z P.exitC P.exitD w.d hd hz
  have hlk : LeakOk z0 ⟨along P.exitC P.exitD w.d, P.exitD, P.exitE, P.i_refl, wl⟩ :=
    ⟨dot_one_sq hu, hz, hP.refl, hP.pos.trans hlc, hw⟩
  unfold reflectLeak at h
  simp only at h
  split at h
  · injection h with h; injection h with h1 h2; subst h2
    exact ⟨hP.1, hP.2, hP.3, ok_snoc hP.4 hlk, hP.5⟩
  split at h
  · injection h with h; injection h with h1 h2; subst h2
    exact ⟨hP.1, hP.2, hP.3, hP.4, ok_snoc hP.5 hlk⟩
  split at h
  · rename_i hcode
    have hend : (along P.exitC P.exitD w.d).z < D.prof.z D.prof.nmax := by simpa using hcode.2
    split at h
    · simp at h
    rename_i T hT
    obtain ⟨t1, t2, t3, t4, t5⟩ := photonNew_fields hT
    rw [Out.bind_eq_ok] at h
    obtain ⟨x, hx, h⟩ := h
    have hTs : FlightOk z0 (tempPhoton P T w.d wl) := by
      refine ⟨?_, hP.refl, ?_, ?_, ?_⟩
      · show dot T.exitD T.exitD ≠ 0; rw [t4]; exact hP.dir
      · show z0 ≤ T.exitC.z; rw [t3]; exact hP.pos.trans hlc
      · intro l hl; simp [tempPhoton, t1] at hl
      · intro l hl; simp [tempPhoton, t2] at hl
    have hL := traceLoop_ok (htr w.q w.r) _ _ _ _ _ hx hTs
    have hA := (traceLoop_flag D leak fuel k _ _ _ _ _ (tempPhoton P T w.d wl) x.1 x.2.1 x.2.2
      (zip_alive hwl hw) (Or.inr (by omega)) hx).2
    split at h
    · injection h with h; injection h with h1 h2; subst h2
      exact hP
    · injection h with h; injection h with h1 h2; subst h2
      have hQ : FlightOk z0 { P with ext := P.ext ++ x.2.2.ext, int := P.int ++ x.2.2.int } :=
        ⟨hP.1, hP.2, hP.3, ok_append hP.4 hL.4, ok_append hP.5 hL.5⟩
      unfold recordTemp
      simp only
      split
      · rename_i hi
        have hk : LeakOk z0 ⟨toExit D.prof x.2.2.exitC x.2.2.exitD, P.exitD, P.exitE, P.i_refl, x.2.2.chans.map (·.w)⟩ := by
          refine ⟨dot_one_sq hu, hz, hP.refl, ?_, alive_weights (hA hi)⟩
          rcases toExit_z D.prof x.2.2.exitC x.2.2.exitD with e | e
          · show z0 ≤ _; rw [e]; exact (hP.pos.trans hlc).trans hend.le
          · show z0 ≤ _; rw [e]; exact hL.pos
        split
        · exact ⟨hQ.1, hQ.2, hQ.3, ok_snoc hQ.4 hk, hQ.5⟩
        · split
          · exact ⟨hQ.1, hQ.2, hQ.3, hQ.4, ok_snoc hQ.5 hk⟩
          · exact hQ
      · exact hQ
  · injection h with h; injection h with h1 h2; subst h2
    exact hP

/-- a wall interaction is downstream, and only photons moving downstream have one -/
theorem traceSearch_hit_down (D : Descr ℝ) (capx capy : Nat → ℝ) (P : Photon ℝ) (k i : Nat) (nrm : V3 ℝ) (j : Nat) (v n : V3 ℝ) (ca : ℝ)
    (h : traceSearch D capx capy P k i P.exitC nrm = .hit j v n ca) : 0 ≤ P.exitD.z ∧ P.exitC.z ≤ v.z := by
  obtain ⟨-, -, -, -, cur, nrm', k5, k6⟩ := traceSearch_hit D capx capy P _ _ _ _ _ _ _ _ le_rfl h
  obtain ⟨hr, -, -, -, h2, -⟩ := segment_success k6
  obtain ⟨-, -, -, -, g5, -⟩ := segRejects_false.mp hr
  exact ⟨g5, by linarith⟩

theorem reflectDir_ne {d n : V3 ℝ} (hd : dot d d = 1) (hn : dot n n = 1) : dot (reflectDir d n (dot n d)) (reflectDir d n (dot n d)) ≠ 0 := by
  rw [(reflectDir_mirror d n hd hn).2.1]; norm_num

theorem trace_ok {z0 : ℝ} (D : Descr ℝ) (leak : Bool) (fuel k : Nat)
    (hrefl : ∀ (n : V3 ℝ) (P : Photon ℝ) (c : Int) (P' : Photon ℝ), reflect D leak fuel k n P = .ok (c, P') → 0 ≤ P.exitD.z →
      FlightOk z0 P → FlightOk z0 P') (capx capy : Nat → ℝ) : TraceOk z0 (trace D leak fuel k capx capy) := by
  intro ix Q c ix' Q' hq hQ
  have hm := trace_moved D leak fuel k capx capy ix Q hQ.dir c ix' Q' hq
  have hleaks : (∀ l ∈ Q'.ext, LeakOk z0 l) ∧ (∀ l ∈ Q'.int, LeakOk z0 l) := by
    unfold trace capilTrace at hq
    simp only at hq
    split at hq
    · injection hq with h; injection h with h1 h; injection h with h2 h3; subst h3; exact ⟨hQ.4, hQ.5⟩
    · injection hq with h; injection h with h1 h; injection h with h2 h3; subst h3; exact ⟨hQ.4, hQ.5⟩
    · rename_i j v n ca hs
      obtain ⟨d1, d2⟩ := traceSearch_hit_down D capx capy _ _ _ _ _ _ _ _ hs
      unfold traceHit at hq
      simp only at hq
      split at hq
      · injection hq with h; injection h with h1 h; injection h with h2 h3; subst h3; exact ⟨hQ.4, hQ.5⟩
      split at hq
      · simp at hq
      split at hq
      · injection hq with h; injection h with h1 h; injection h with h2 h3; subst h3; exact ⟨hQ.4, hQ.5⟩
      split at hq
      · injection hq with h; injection h with h1 h; injection h with h2 h3; subst h3; exact ⟨hQ.4, hQ.5⟩
      rw [Out.bind_eq_ok] at hq
      obtain ⟨⟨rc, R⟩, hR, hq⟩ := hq
      have hF := hrefl _ _ _ _ hR d1 ⟨by
        show dot (vnorm Q.exitD) (vnorm Q.exitD) ≠ 0
        rw [vnorm_dot _ hQ.dir]; norm_num, hQ.refl, hQ.pos.trans d2, hQ.4, hQ.5⟩
      injection hq with h
      unfold afterReflect at h
      simp only at h
      split at h
      · injection h with h1 h; injection h with h2 h3; subst h3; exact ⟨hF.4, hF.5⟩
      split at h
      · injection h with h1 h; injection h with h2 h3; subst h3; exact ⟨hF.4, hF.5⟩
      · injection h with h1 h; injection h with h2 h3; subst h3; exact ⟨hF.4, hF.5⟩
  have hu := vnorm_dot _ hQ.dir
  cases hm with
  | stay hc hC hd ht hr =>
    exact ⟨by rw [hd, hu]; norm_num, by rw [hr]; exact hQ.refl, by rw [hC]; exact hQ.pos, hleaks.1, hleaks.2⟩
  | hit i n hi hdz hn hnd hseg hline hz' hadv ht hD hr =>
    refine ⟨?_, ?_, by have := hQ.pos; linarith, hleaks.1, hleaks.2⟩
    · rw [hD]
      split
      · exact reflectDir_ne hu hn
      · rw [hu]; norm_num
    · rw [hr]
      have := hQ.refl
      split <;> omega

theorem reflect_ok {z0 : ℝ} (D : Descr ℝ) (leak : Bool) (fuel : Nat) : ∀ (k : Nat) (n : V3 ℝ) (P : Photon ℝ) (c : Int) (P' : Photon ℝ),
    reflect D leak fuel k n P = .ok (c, P') → 0 ≤ P.exitD.z → FlightOk z0 P → FlightOk z0 P' := by
  intro k
  induction k with
  | zero => intro n P c P' h; simp [reflect] at h
  | succ k ih =>
    intro n P c P' h hz hP
    have hu := vnorm_dot _ hP.dir
    have huu := vnorm_unit _ hu
    have hzu : 0 ≤ (vnorm P.exitD).z := by
      show 0 ≤ P.exitD.z / Real.sqrt _
      exact div_nonneg hz (Real.sqrt_nonneg _)
    have htr : ∀ q r, TraceOk z0 (trace D leak fuel k (capxOf D q r) (capyOf D q r)) := fun q r => trace_ok D leak fuel k ih _ _
    have hN : FlightOk z0 { P with exitD := vnorm P.exitD } := ⟨by show dot (vnorm P.exitD) (vnorm P.exitD) ≠ 0; rw [hu]; norm_num, hP.2, hP.3, hP.4, hP.5⟩
    unfold reflect reflectBody at h
    simp only at h
    split at h
    · injection h with h; injection h with h1 h2; subst h2; exact hN
    rw [Out.bind_eq_ok] at h
    obtain ⟨w, hw, h⟩ := h
    have hwd := wallOf_d _ _ _ _ _ hw
    have hren : (renorm leak { P with exitD := vnorm P.exitD }) = { P with exitD := vnorm P.exitD } := by
      unfold renorm; cases leak <;> simp [huu]
    rw [hren] at h
    unfold reflectRest at h
    simp only at h
    split at h
    · injection h with h; injection h with h1 h2; subst h2; exact hN
    split at h
    · simp at h
    split at h
    · injection h with h; injection h with h1 h2; subst h2; exact ⟨hN.1, hN.2, hN.3, hN.4, hN.5⟩
    rename_i hok
    split at h
    · rename_i hf
      have hw' := reflEnergies_leakFlag _ _ _ _ _ _ _ _ _ hf
      obtain ⟨r1, r2, -⟩ := reflEnergies_shape D (vnorm n) (vnorm P.exitD) (scalar (vnorm P.exitD) (vnorm n)) leak w.d P.chans P.exitE P.exitE
      refine reflectLeak_ok D leak fuel k htr _ w _ _ c P' ?_ hw' hwd hu hzu ?_ h
      · exact (r2 (by simpa using hok)).trans r1.symm
      · exact ⟨hN.1, hN.2, hN.3, hN.4, hN.5⟩
    · injection h with h; injection h with h1 h2; subst h2; exact ⟨hN.1, hN.2, hN.3, hN.4, hN.5⟩

/-- What remains true of the leaks of a photon that was put into the glass below the entrance. -/
structure LeakWeak (z0 : ℝ) (l : Leak ℝ) : Prop where
  unit : l.dir.x ^ 2 + l.dir.y ^ 2 + l.dir.z ^ 2 = 1
  refl : 0 ≤ l.n_refl
  pos : z0 ≤ l.coords.z

theorem LeakOk.weak {z0 : ℝ} {l : Leak ℝ} (h : LeakOk z0 l) : LeakWeak z0 l := ⟨h.unit, h.refl, h.pos⟩

/-- the walk leaves a unit direction -/
theorem traceLoop_unit (D : Descr ℝ) (leak : Bool) (fuel kk : Nat) (capx capy : Nat → ℝ) :
    ∀ (k : Nat) (iesc : Int) (ix : Nat) (P : Photon ℝ) (x), traceLoop (trace D leak fuel kk capx capy) k iesc ix P = .ok x →
      dot P.exitD P.exitD = 1 → dot x.2.2.exitD x.2.2.exitD = 1 := by
  intro k
  induction k with
  | zero => intro iesc ix P x hx hP; simp only [traceLoop] at hx; injection hx with hx; subst hx; exact hP
  | succ k ih =>
    intro iesc ix P x hx hP
    unfold traceLoop at hx
    rw [Out.bind_eq_ok] at hx
    obtain ⟨⟨c, i, Q⟩, hy, hx⟩ := hx
    have hne : dot P.exitD P.exitD ≠ 0 := by rw [hP]; norm_num
    have hu := vnorm_dot _ hne
    have h1 : dot Q.exitD Q.exitD = 1 := by
      cases trace_moved D leak fuel kk capx capy ix P hne c i Q hy with
      | stay hc hC hd ht hr => rw [hd, hu]
      | hit i n hi hdz hn hnd hseg hline hz' hadv ht hD hr =>
        rw [hD]
        split
        · exact (reflectDir_mirror _ _ hu hn).2.1
        · exact hu
    split at hx
    · injection hx with hx; subst hx; exact h1
    · exact ih _ _ _ _ hx h1

theorem traceWall_before (D : Descr ℝ) (fuel : Nat) (c d : V3 ℝ) (w : Wall ℝ) (h : traceWall D fuel c d = .ok w) (hc : 0 < w.code) :
    c.z < D.prof.z D.prof.nmax := by
  unfold traceWall at h
  simp only at h
  split at h
  · injection h with h; subst h; simp at hc
  · rename_i hz; simpa using hz

theorem launchWall_weak (D : Descr ℝ) (leak : Bool) (fuel k : Nat) (P : Photon ℝ) (w : Wall ℝ) (c : Int) (o : WOut ℝ) (P' : Photon ℝ)
    (hu : dot P.exitD P.exitD = 1) (hz : 0 ≤ P.exitD.z) (hd : 0 ≤ w.d) (hbefore : 0 < w.code → P.exitC.z < D.prof.z D.prof.nmax)
    (hr : 0 ≤ P.i_refl) (he : P.ext = []) (hi : P.int = [])
    (h : launchWall D leak fuel k P w = .ok (c, o, P')) :
    (∀ l ∈ P'.ext, LeakWeak P.exitC.z l) ∧ (∀ l ∈ P'.int, LeakWeak P.exitC.z l) := by
  have hlc := along_z P.exitC P.exitD w.d hd hz
  have hlk : ∀ wl, LeakWeak P.exitC.z ⟨along P.exitC P.exitD w.d, P.exitD, P.exitE, P.i_refl, wl⟩ := fun wl => ⟨dot_one_sq hu, hr, hlc⟩
  have hne : ∀ l ∈ ([] : List (Leak ℝ)), LeakWeak P.exitC.z l := by intro l hl; simp at hl
  unfold launchWall at h
  simp only at h
  split at h
  · injection h with h; injection h with h1 h; injection h with h2 h3; subst h3
    simp only [finish, he, hi]; exact ⟨hne, hne⟩
  rename_i hcode
  split at h
  · simp at h
  split at h
  · injection h with h; injection h with h1 h; injection h with h2 h3; subst h3
    simp only [finish, clearWall, he, hi, List.nil_append, List.mem_singleton, forall_eq]
    exact ⟨hlk _, hne⟩
  split at h
  · injection h with h; injection h with h1 h; injection h with h2 h3; subst h3
    simp only [finish, clearWall, he, hi, List.nil_append, List.mem_singleton, forall_eq]
    exact ⟨hne, hlk _⟩
  rw [Out.bind_eq_ok] at h
  obtain ⟨x, hx, h⟩ := h
  have hL := traceLoop_ok (z0 := P.exitC.z) (trace_ok D leak fuel k (reflect_ok D leak fuel k) _ _) _ _ _ _ _ hx
    ⟨by show dot P.exitD P.exitD ≠ 0; rw [hu]; norm_num, hr, hlc, by intro l hl; simp [he] at hl, by intro l hl; simp [hi] at hl⟩
  have hU := traceLoop_unit D leak fuel k _ _ _ _ _ _ _ hx hu
  split at h
  · injection h with h; injection h with h1 h; injection h with h2 h3; subst h3
    exact ⟨fun l hl => (hL.4 l hl).weak, fun l hl => (hL.5 l hl).weak⟩
  · injection h with h; injection h with h1 h; injection h with h2 h3; subst h3
    have hk : LeakWeak P.exitC.z ⟨toExit D.prof x.2.2.exitC x.2.2.exitD, x.2.2.exitD, x.2.2.exitE, x.2.2.i_refl, x.2.2.chans.map (·.w)⟩ := by
      refine ⟨dot_one_sq hU, hL.refl, ?_⟩
      rcases toExit_z D.prof x.2.2.exitC x.2.2.exitD with e | e
      · show P.exitC.z ≤ _; rw [e]; exact (hbefore (by omega)).le
      · show P.exitC.z ≤ _; rw [e]; exact hL.pos
    have snoc : ∀ {ls : List (Leak ℝ)}, (∀ l ∈ ls, LeakOk P.exitC.z l) → ∀ l ∈ ls ++ [⟨toExit D.prof x.2.2.exitC x.2.2.exitD, x.2.2.exitD,
        x.2.2.exitE, x.2.2.i_refl, x.2.2.chans.map (·.w)⟩], LeakWeak P.exitC.z l := by
      intro ls hls l hl
      rcases List.mem_append.1 hl with hl | hl
      · exact (hls l hl).weak
      · simp only [List.mem_singleton] at hl; subst hl; exact hk
    simp only [finish, clearWall]
    unfold recordLaunch
    simp only
    split
    · split
      · exact ⟨snoc hL.4, fun l hl => (hL.5 l hl).weak⟩
      · split
        · exact ⟨fun l hl => (hL.4 l hl).weak, snoc hL.5⟩
        · exact ⟨fun l hl => (hL.4 l hl).weak, fun l hl => (hL.5 l hl).weak⟩
    · exact ⟨fun l hl => (hL.4 l hl).weak, fun l hl => (hL.5 l hl).weak⟩

/-- **C73.**  Every leak event recorded by a launch has a unit direction, a reflection count that is not negative and a position not
above the start of the photon; if the photon started in a capillary or at the entrance (`weights` filled, or `z = 0`), the direction
points downstream and at least one energy kept a fraction of `1e-4` or more.  Conditions: valid energies, and a start direction that
points downstream. -/
theorem launch_leaks_ok (lib : Xray ℝ) (D : Descr ℝ) (leak : Bool) (fuel k : Nat) (P : Photon ℝ) (es : List ℝ)
    (hes : es ≠ []) (hb : ∀ e ∈ es, energyBad e = false) (hz : 0 < P.startD.z) (c : Int) (o : WOut ℝ) (P' : Photon ℝ)
    (h : launch lib (some D) leak fuel k (some P) (some es) true = .ok (c, o, some P')) :
    (∀ l ∈ P'.ext ++ P'.int, LeakWeak P.startC.z l) ∧
    (P.startC.z = 0 ∨ (∃ ws, o = .filled ws) → ∀ l ∈ P'.ext ++ P'.int, LeakOk P.startC.z l) := by
  have hg : (es.isEmpty || es.any energyBad || !true) = false := by
    have h1 : es.isEmpty = false := by cases es <;> simp_all
    have h2 : es.any energyBad = false := by simpa [List.any_eq_false] using hb
    simp [h1, h2]
  unfold launch at h
  simp only at h
  rw [hg] at h
  simp only [Bool.false_eq_true, if_false] at h
  rw [Out.bind_eq_ok] at h
  obtain ⟨⟨c', o', Q⟩, hx, h⟩ := h
  injection h with h; injection h with h1 h; injection h with h2 h3; injection h3 with h3
  simp only at h1 h2 h3
  subst h1 h2 h3
  have hne : dot P.startD P.startD ≠ 0 := by
    have : 0 < P.startD.z * P.startD.z := mul_pos hz hz
    unfold dot
    nlinarith [mul_self_nonneg P.startD.x, mul_self_nonneg P.startD.y]
  have hv : vnorm (vnorm P.startD) = vnorm P.startD := vnorm_unit _ (vnorm_dot _ hne)
  have hexd : (launchInit lib D es P).exitD = vnorm P.startD := hv
  have hzv : 0 ≤ (vnorm P.startD).z := by
    show 0 ≤ P.startD.z / Real.sqrt _
    exact div_nonneg hz.le (Real.sqrt_nonneg _)
  have hI : FlightOk P.startC.z (launchInit lib D es P) := by
    refine ⟨?_, le_refl _, le_refl _, ?_, ?_⟩
    · rw [hexd, vnorm_dot _ hne]; norm_num
    · intro l hl; simp [launchInit] at hl
    · intro l hl; simp [launchInit] at hl
  have both : ∀ {R : Photon ℝ}, FlightOk P.startC.z R → ∀ l ∈ (finish R).ext ++ (finish R).int, LeakOk P.startC.z l :=
    fun hR => ok_append hR.4 hR.5
  cases launchBody_ended _ _ _ _ _ _ _ _ _ _ hx with
  | outside => exact ⟨fun l hl => (both hI l hl).weak, fun _ => both hI⟩
  | glass => exact ⟨fun l hl => (both hI l hl).weak, fun _ => both hI⟩
  | front qr _ _ _ _ x hy =>
    have := reflect_ok (z0 := P.startC.z) D leak fuel k _ _ x.1 x.2 hy (by rw [hexd]; exact hzv) hI
    exact ⟨fun l hl => (both this l hl).weak, fun _ => both this⟩
  | within qr _ _ _ h0 h1 w hw c o P' hy =>
    obtain ⟨d1, -⟩ := traceWall_d _ _ _ _ _ hw
    have hu2 : dot (vnorm (launchInit lib D es P).exitD) (vnorm (launchInit lib D es P).exitD) = 1 := by
      rw [hexd]; exact vnorm_dot _ (by rw [vnorm_dot _ hne]; norm_num)
    have hz2 : 0 ≤ (vnorm (launchInit lib D es P).exitD).z := by rw [hexd, hv]; exact hzv
    obtain ⟨a1, a2⟩ := launchWall_weak D leak fuel k _ w _ _ _ hu2 hz2 d1 (fun hc => traceWall_before D fuel _ _ w hw hc) (le_refl _) rfl rfl hy
    refine ⟨fun l hl => (List.mem_append.1 hl).elim (a1 l) (a2 l), fun hh => ?_⟩
    rcases hh with h00 | ⟨ws, hws⟩
    · rw [h00] at h0; simp at h0
    · exfalso
      unfold launchWall at hy
      simp only at hy
      subst hws
      split at hy
      · injection hy with h; injection h with h1 h; injection h with h2 h3; cases h2
      split at hy
      · simp at hy
      split at hy
      · injection hy with h; injection h with h1 h; injection h with h2 h3; cases h2
      split at hy
      · injection hy with h; injection h with h1 h; injection h with h2 h3; cases h2
      rw [Out.bind_eq_ok] at hy
      obtain ⟨x, -, hy⟩ := hy
      split at hy
      · injection hy with h; injection h with h1 h; injection h with h2 h3; cases h2
      · injection hy with h; injection h with h1 h; injection h with h2 h3; cases h2
  | inside qr _ _ c o P' hy =>
    obtain ⟨iesc, ix, Q', ht, -, -, -, -, -, rfl⟩ := launchInside_inv _ _ _ _ _ _ _ _ _ hy
    have := traceLoop_ok (z0 := P.startC.z) (trace_ok D leak fuel k (reflect_ok D leak fuel k) _ _) _ _ _ _ _ ht hI
    exact ⟨fun l hl => (both this l hl).weak, fun _ => both this⟩

/-! ### A photon that hits the front face of the glass leaks through it -/

/-- the tube of the examples, rough -/
noncomputable def lkD : Descr ℝ := { exD with sig_rough := 1 }

theorem lk_wall : ∃ w : Wall ℝ, traceWall lkD 0 ⟨3/2, 0, 0⟩ ⟨0, 5/13, 12/13⟩ = .ok w ∧ w.code = 2 := by
  have hns : nShells (α := ℝ) lkD.n_cap = 0 := nShells_one
  have hzid : segIdFrom lkD.prof.z 0 (0:ℝ) lkD.prof.nmax = 0 := segId_zero _ _ _ 0 (by simp [lkD, exD, exProf]) (by intro i h1 h2; omega)
  have hge : (((0:ℝ)) >=. lkD.prof.z lkD.prof.nmax) = false := by
    simp only [ge, real_le, decide_eq_false_iff_not, lkD, exD, exProf]; norm_num
  have hext : wallExt lkD.prof 0 (0:ℝ) = 2 := by
    unfold wallExt interpAt
    split
    · rw [linAt_interp]; simp [linAt, lkD, exD, exProf]
    · rfl
  have hsq : (sqrt (((3/2:ℝ)) *. (3/2) +. (0:ℝ) *. 0) >. (2:ℝ)) = false := by
    simp only [real_sqrt, real_mul, real_add, gt, real_lt, decide_eq_false_iff_not, not_lt]
    rw [show (3/2 * (3/2) + 0 * 0 : ℝ) = (3/2) ^ 2 by norm_num, Real.sqrt_sq (by norm_num)]; norm_num
  unfold traceWall
  simp only [hge, hzid, hext, hns, hsq, Bool.false_eq_true, if_false, if_true]
  rw [show lkD.prof.nmax - 1 - (0 + 1) = 0 from rfl]
  have hseg : (segment (axisAt lkD.prof 0 0 0 0) (axisAt lkD.prof 0 0 0 (0 + 1)) (lkD.prof.cap 0) (lkD.prof.cap (0 + 1))
    (atGrid lkD.prof ⟨3/2, 0, 0⟩ ⟨0, 5/13, 12/13⟩ 0) (atGrid lkD.prof ⟨3/2, 0, 0⟩ ⟨0, 5/13, 12/13⟩ (0 + 1)) ⟨0, 5/13, 12/13⟩ ⟨3/2, 0, 0⟩ ⟨lit 0, lit 0, lit 0⟩).1 ≠ 1 := by
    intro hs
    generalize hseg : segment (axisAt lkD.prof 0 0 0 0) (axisAt lkD.prof 0 0 0 (0 + 1)) (lkD.prof.cap 0) (lkD.prof.cap (0 + 1))
      (atGrid lkD.prof ⟨3/2, 0, 0⟩ ⟨0, 5/13, 12/13⟩ 0) (atGrid lkD.prof ⟨3/2, 0, 0⟩ ⟨0, 5/13, 12/13⟩ (0 + 1)) ⟨0, 5/13, 12/13⟩ ⟨3/2, 0, 0⟩ ⟨lit 0, lit 0, lit 0⟩ = s at hs
    obtain ⟨s1, v, n⟩ := s
    simp only at hs
    subst hs
    have hg : genCoeff (axisAt lkD.prof 0 0 0 0) (axisAt lkD.prof 0 0 0 (0 + 1)) (lkD.prof.cap 0) (lkD.prof.cap (0 + 1)) ⟨0, 5/13, 12/13⟩ ≠ 0 := by
      simp only [genCoeff, axisAt, lkD, exD, exProf]
      norm_num
    obtain ⟨l, -, z0, z1, -, w, -⟩ := segment_sound _ _ _ _ _ _ _ _ _ _ _ (by norm_num) hg hseg
    rw [l] at w
    simp only [OnWall, axisAt, lineAt, atGrid_eq, linAt, lkD, exD, exProf] at w
    simp only [axisAt, lkD, exD, exProf] at z0 z1
    norm_num at w z0 z1
    nlinarith
  unfold wallSegs
  simp only [hseg, if_false]
  unfold wallEnd
  simp only [ne_eq, hseg, not_false_eq_true, if_true]
  have hat : atGrid lkD.prof ⟨3/2, 0, 0⟩ ⟨0, 5/13, 12/13⟩ lkD.prof.nmax = ⟨3/2, 5/12, 1⟩ := by
    rw [atGrid_eq]; simp [lkD, exD, exProf]; norm_num
  unfold wallExit
  simp only [hat]
  rw [show lkD.prof.ext lkD.prof.nmax = 2 from rfl, boundary_contains_disc 2 (3/2) (5/12) (by norm_num) (by norm_num), if_neg (by decide)]
  exact ⟨_, rfl, rfl⟩

theorem lk_rough : roughFactor (1:ℝ) 10 (12/13) ≤ 1 / 2 := by
  simp only [roughFactor, real_mul, real_exp, real_lit]
  have h : Real.exp (((-1:ℚ):ℝ) * (((101358/10^5:ℚ):ℝ) * 10 * (12/13) * 1) * (((101358/10^5:ℚ):ℝ) * 10 * (12/13) * 1)) ≤ Real.exp (-1) := by
    apply Real.exp_le_exp.2; norm_num
  refine h.trans ?_
  rw [Real.exp_neg, one_div]
  exact inv_anti₀ (by norm_num) (by have := Real.add_one_le_exp (1:ℝ); linarith)

theorem lk_reflect (k : Nat) (P : Photon ℝ) (hC : P.exitC = ⟨3/2, 0, 0⟩) (hD : P.exitD = ⟨0, 5/13, 12/13⟩) (hch : P.chans = [⟨10, 1, 0, 1/2⟩])
    (hco : P.coef = true) (hi : P.int = []) : ∃ c P' l, reflect lkD true 0 (k + 1) ⟨0, 0, 1⟩ P = .ok (c, P') ∧ P'.int = [l] := by
  obtain ⟨w, hw1, hw2⟩ := lk_wall
  have e0 : ((0:ℚ):ℝ) = 0 := by norm_num
  have e1 : ((1:ℚ):ℝ) = 1 := by norm_num
  have e4 : ((1/10^4:ℚ):ℝ) = 1/10^4 := by norm_num
  have huu := vnorm_unit (⟨0, 5/13, 12/13⟩ : V3 ℝ) (by unfold dot; norm_num)
  have hsc : scalar (⟨0, 5/13, 12/13⟩ : V3 ℝ) ⟨0, 0, 1⟩ = 12/13 := by rw [scalar_real]; unfold dot; norm_num
  have hneg : ((12/13 : ℝ) <. lit 0) = false := by simp only [real_lt, real_lit, e0, decide_eq_false_iff_not]; norm_num
  have hp := reflectivity_probability 10 (223/100) (1/2) 0 ⟨0, 0, 1⟩ ⟨0, 5/13, 12/13⟩ P.exitE P.exitE (by norm_num) (by norm_num) (by norm_num) le_rfl
    (by simp only [reflAlfa, cHC, cNAVOG, cR0, mpi, real_mul, real_div, real_lit]; norm_num) (by unfold dot; norm_num)
  unfold reflect reflectBody
  simp only [hD, vnorm_z, huu, hsc, hneg, Bool.false_eq_true, if_false, wallOf, renorm, if_true, hC, hw1, Out.bind_ok]
  unfold reflectRest
  rw [if_neg (by simp [hw2]), if_neg (by simp [hco])]
  simp only [hch, reflEnergies]
  rw [show lkD.density = 223/100 from rfl, show lkD.sig_rough = 1 from rfl]
  generalize reflPolar (10:ℝ) (223/100) (1/2) 0 ⟨0, 0, 1⟩ ⟨0, 5/13, 12/13⟩ P.exitE P.exitE = x at hp ⊢
  have hr1 : (x.1 <. lit 0 || x.1 >. lit 1) = false := by
    simp only [gt, real_lt, real_lit, e0, e1, Bool.or_eq_false_iff, decide_eq_false_iff_not]
    exact ⟨by linarith [hp.1], by linarith [hp.2]⟩
  have hfl : (leakWeight x.1 (roughFactor (1:ℝ) 10 (12/13)) 1 w.d 0 >=. lit (1/10^4)) = true := by
    simp only [leakWeight, ge, real_le, real_lit, e1, e4, decide_eq_true_eq, real_sub, real_mul, real_exp, mul_zero, Real.exp_zero, mul_one]
    have h1 := lk_rough
    have h2 : 0 ≤ roughFactor (1:ℝ) 10 (12/13) := by simp only [roughFactor, real_exp]; exact (Real.exp_pos _).le
    nlinarith [hp.1, hp.2]
  simp only [hr1, hfl, Bool.false_eq_true, if_false, Bool.true_and, Bool.or_false, Bool.not_true, if_true]
  unfold reflectLeak
  have hcode : ∀ lc : V3 ℝ, wallCode lkD w.code lc = 2 := fun lc => by unfold wallCode; rw [if_neg (by rw [hw2]; decide), hw2]
  simp only [hcode, hi]
  rw [if_neg (by decide), if_pos trivial]
  exact ⟨_, _, _, rfl, rfl⟩

/-- **C73**, the hypotheses are met by a launch that records a leak event. -/
theorem lk_leaks : ∃ P' l, launch zLib (some lkD) true 0 1 (some (exP ⟨3/2, 0, 0⟩ ⟨0, 5/13, 12/13⟩ 0)) (some [10]) true = .ok (2, .uninit, some P') ∧
    P'.int = [l] := by
  have hb : ¬ ArgsBad (some lkD) (some (exP ⟨3/2, 0, 0⟩ ⟨0, 5/13, 12/13⟩ 0)) (some [(10:ℝ)]) true :=
    not_argsBad (by simp) (by intro e he; simp at he; subst he; norm_num)
  obtain ⟨D', P'', es', e1, e2, e3, -, -, -, h'⟩ :=
    launch_valid zLib (some lkD) true 0 1 (some (exP ⟨3/2, 0, 0⟩ ⟨0, 5/13, 12/13⟩ 0)) (some [(10:ℝ)]) true hb
  injection e1 with e1; injection e2 with e2; injection e3 with e3; subst e1 e2 e3
  rw [h']
  have e0 : ((0:ℚ):ℝ) = 0 := by norm_num
  have hs32 : Real.sqrt ((3/2:ℝ) ^ 2 + 0 ^ 2) = 3/2 := by
    rw [show ((3/2:ℝ) ^ 2 + 0 ^ 2) = (3/2) ^ 2 by norm_num]; exact Real.sqrt_sq (by norm_num)
  have hc : launchCap lkD ⟨3/2, 0, 0⟩ = some (0, 0) := ex_cap (c := ⟨3/2, 0, 0⟩) (by norm_num) (by norm_num)
  have hw : startsInWall lkD (0, 0) ⟨3/2, 0, 0⟩ = true := by
    show startsInWall exD (0, 0) ⟨3/2, 0, 0⟩ = true
    rw [ex_glass (by norm_num) (by norm_num), hs32]; norm_num
  have hz0 : (((0:ℝ)) ==. lit 0) = true := by simp only [real_beq, real_lit, e0, decide_true]
  have q4 : (launchInit zLib lkD [10] (exP ⟨3/2, 0, 0⟩ ⟨0, 5/13, 12/13⟩ 0)).coef = true := by
    show (!scatfRejects exD [10]) = true
    rw [ex_scatf]; rfl
  have q5 : (launchInit zLib lkD [10] (exP ⟨3/2, 0, 0⟩ ⟨0, 5/13, 12/13⟩ 0)).chans = [⟨10, 1, 0, 1/2⟩] := by
    simp [launchInit, amuOf, scatfOf, lkD, exD, zLib]
    norm_num
  have q3 : (launchInit zLib lkD [10] (exP ⟨3/2, 0, 0⟩ ⟨0, 5/13, 12/13⟩ 0)).exitD = ⟨0, 5/13, 12/13⟩ := by
    have huu := vnorm_unit (⟨0, 5/13, 12/13⟩ : V3 ℝ) (by unfold dot; norm_num)
    show vnorm (vnorm _) = _
    rw [show (exP ⟨3/2, 0, 0⟩ ⟨0, 5/13, 12/13⟩ 0).startD = ⟨0, 5/13, 12/13⟩ from rfl, huu, huu]
  obtain ⟨c, P', l, hr, hl⟩ := lk_reflect 0 _ rfl q3 q5 q4 rfl
  have q1 : (launchInit zLib lkD [10] (exP ⟨3/2, 0, 0⟩ ⟨0, 5/13, 12/13⟩ 0)).startC = ⟨3/2, 0, 0⟩ := rfl
  refine ⟨finish P', l, ?_, hl⟩
  unfold launchBody
  simp only [q1, hc, hw, if_true, hz0, Bool.and_true]
  have e1 : (⟨lit 0, lit 0, lit 1⟩ : V3 ℝ) = ⟨0, 0, 1⟩ := by simp
  rw [e1, hr]
  rfl

example : ∃ P' l, launch zLib (some lkD) true 0 1 (some (exP ⟨3/2, 0, 0⟩ ⟨0, 5/13, 12/13⟩ 0)) (some [10]) true = .ok (2, .uninit, some P') ∧
    l ∈ P'.int ∧ LeakOk 0 l := by
  obtain ⟨P', l, h, hl⟩ := lk_leaks
  refine ⟨P', l, h, by simp [hl], ?_⟩
  refine (launch_leaks_ok _ _ _ _ _ _ _ (by simp) ?_ ?_ _ _ _ h).2 (Or.inl rfl) l (by simp [hl])
  · intro e he
    simp only [List.mem_singleton] at he
    subst he
    simp only [energyBad, gt, real_lt, real_lit]; norm_num
  · show (0:ℝ) < 12/13; norm_num

/-- the leak events of one simulated photon -/
theorem attempt_leaks {lib : Xray ℝ} {S : Src ℝ} {D : Descr ℝ} (G : GoodSetup lib S D) {leak : Bool} {fuel k : Nat} {u : Nat → ℝ}
    (hu : ∀ i, 0 ≤ u i ∧ u i ≤ 1) {n : Nat} {p : Attempt ℝ} {m : Nat} (h : attempt lib S D leak fuel k u n = .ok (p, m)) :
    (∀ l ∈ p.ph.ext, LeakOk 0 l ∧ l.weight.length = S.energies.length) ∧ (∀ l ∈ p.ph.int, LeakOk 0 l ∧ l.weight.length = S.energies.length) := by
  obtain ⟨x, hx, -, hl⟩ := attempt_ok h
  obtain ⟨c0, d0, -⟩ := source_photon_geometry S G.src D u hu fuel n x m hx
  obtain ⟨-, -, hes, hb, -⟩ := (scatf_accepts_iff D S.energies).mp G.comp
  have hb' : ∀ e ∈ S.energies, energyBad e = false := fun e he => by
    have := hb e he
    simp only [energyBad, gt, real_lt, real_lit, Bool.or_eq_false_iff, decide_eq_false_iff_not, not_lt]
    push_cast
    exact ⟨this.1, this.2⟩
  obtain ⟨-, h2⟩ := launch_leaks_ok lib D leak fuel k _ _ hes hb' d0 _ _ _ hl
  have h3 := h2 (Or.inl c0)
  rw [c0] at h3
  obtain ⟨s1, s2⟩ := launch_leaks_shape lib D leak fuel k _ _ hes hb' _ _ _ hl
  exact ⟨fun l hl => ⟨h3 l (List.mem_append_left _ hl), s1 l hl⟩, fun l hl => ⟨h3 l (List.mem_append_right _ hl), s2 l hl⟩⟩

end Polycap

namespace Polycap.Get
open CNum Polycap.H5

/-- a leak event as the getters hand it out, with `ne` energies -/
structure HandedOk (ne : Nat) (g : GLeak ℝ) : Prop where
  unit : g.dir.x ^ 2 + g.dir.y ^ 2 + g.dir.z ^ 2 = 1
  down : 0 ≤ g.dir.z
  refl : 0 ≤ g.nRefl
  pos : 0 ≤ g.coords.z
  count : g.nEnergies = ne
  weights : g.weight.length = ne
  weight : ∃ w ∈ g.weight, 1 / 10 ^ 4 ≤ w

theorem handed {ne : Nat} {l : Leak ℝ} (h : LeakOk 0 l) (hl : l.weight.length = ne) (ev : Option (V3 ℝ)) :
    HandedOk ne ⟨l.coords, rebuilt l.dir.x l.dir.y, ev, ne, l.n_refl, l.weight.take ne⟩ := by
  have hd := rebuilt_direction l.dir h.unit h.down
  refine ⟨?_, ?_, h.refl, h.pos, rfl, by simp [hl], ?_⟩
  · simp only [hd]; exact h.unit
  · simp only [hd]; exact h.down
  · simp only [List.take_of_length_le hl.le]; exact h.weight

theorem trunc_ok {ne : Nat} {l : Leak ℝ} (h : LeakOk 0 l ∧ l.weight.length = ne) : LeakOk 0 (trunc ne l) ∧ (trunc ne l).weight.length = ne := by
  have : trunc ne l = l := by unfold trunc; rw [List.take_of_length_le h.2.le]
  rw [this]; exact h

/-- **C73** for the results of a simulation: every leak event handed out has a unit direction pointing downstream, a reflection count,
a position inside or below the entrance, one weight per energy, and at least one weight of `1e-4` or more. -/
theorem simulation_leaks (lib : Xray ℝ) (a : SimArgs ℝ) (omp : Int) (e : EArg) (r : TE ℝ) (e' : EArg) (h : SimOutcome lib a omp e (some r) e')
    {S : Src ℝ} {D : Descr ℝ} (hS : a.source = some (S, some D)) (G : GoodSetup lib S D) (ok : Nat → Bool) (b : Bool) (e'' : EArg) (x : LeakOut ℝ)
    (hg : getExt ok (some (some r)) e' = .ok (b, e'', x) ∨ getInt ok (some (some r)) e' = .ok (b, e'', x))
    (gs : List (GLeak ℝ)) (hb : b = true) (hx : x.leaks = .arr gs) : ∀ g ∈ gs, HandedOk S.energies.length g := by
  cases h with
  | ran h S' D' hs u hu fuel k asg hd n s hr hf =>
    rw [hS] at hs
    simp only [Option.some.injEq, Prod.mk.injEq] at hs
    obtain ⟨rfl, rfl⟩ := hs
    have hall := allHist_mem hr hf
    have R := simulation_reports hd hr hf S.energies
    obtain ⟨ps, es, is, hp, h2, h3, h4, hH⟩ := reports_hold R (effs_length hr hf S.energies) rfl
    have hleak : ∀ y ∈ allHist (simCfg lib S D a omp u fuel k) (fun t => (s.thr t).hist),
        (∀ l ∈ y.2.ph.ext, LeakOk 0 l ∧ l.weight.length = S.energies.length) ∧ (∀ l ∈ y.2.ph.int, LeakOk 0 l ∧ l.weight.length = S.energies.length) := by
      intro y hy
      obtain ⟨t, ht, q, q', hq⟩ := hall y hy
      exact attempt_leaks G (real_unit hu t) (show attempt lib S D a.leak fuel k (u t) q = .ok (y.2, q') from hq)
    have he : ∀ l ∈ es, LeakOk 0 l ∧ l.weight.length = S.energies.length := by
      intro l hl
      have := h3.mem_iff.1 hl
      split at this
      · obtain ⟨y, hy, hly⟩ := List.mem_flatMap.1 this
        split at hly
        · obtain ⟨l0, hl0, rfl⟩ := List.mem_map.1 hly
          exact trunc_ok ((hleak y hy).1 l0 hl0)
        · simp at hly
      · simp at this
    have hi : ∀ l ∈ is, LeakOk 0 l ∧ l.weight.length = S.energies.length := by
      intro l hl
      have := h4.mem_iff.1 hl
      split at this
      · obtain ⟨y, hy, hly⟩ := List.mem_flatMap.1 this
        split at hly
        · obtain ⟨l0, hl0, rfl⟩ := List.mem_map.1 hly
          exact trunc_ok ((hleak y hy).2 l0 hl0)
        · simp at hly
      · simp at this
    subst hb
    rcases hg with hg | hg
    · by_cases h0 : (results (simCfg lib S D a omp u fuel k) S.energies s).iExt = 0
      · rw [getExt, getLeaks, if_pos h0] at hg; injection hg with hg; injection hg with h1 _; cases h1
      obtain ⟨k1, k2⟩ := extleak_data ok hH h0 e
      by_cases hok : ∀ k < 1 + 2 * (results (simCfg lib S D a omp u fuel k) S.energies s).iExt, ok k = true
      · rw [k1 hok] at hg
        injection hg with hg; injection hg with h1 hg; injection hg with h5 h6
        rw [← h6] at hx
        simp only [List.zipWith_map, List.zipWith_self, Cell.arr.injEq] at hx
        subst hx
        intro g hgm
        obtain ⟨l, hl, rfl⟩ := List.mem_map.1 hgm
        exact handed (he l hl).1 (he l hl).2 none
      · obtain ⟨o, ho⟩ := k2 hok
        rw [ho] at hg; injection hg with hg; injection hg with h1 _; cases h1
    · by_cases h0 : (results (simCfg lib S D a omp u fuel k) S.energies s).iInt = 0
      · rw [getInt, getLeaks, if_pos h0] at hg; injection hg with hg; injection hg with h1 _; cases h1
      obtain ⟨k1, k2⟩ := intleak_data ok hH h0 e
      by_cases hok : ∀ k < 1 + 2 * (results (simCfg lib S D a omp u fuel k) S.energies s).iInt, ok k = true
      · rw [k1 hok] at hg
        injection hg with hg; injection hg with h1 hg; injection hg with h5 h6
        rw [← h6] at hx
        simp only [List.zip_map', List.zipWith_map, List.zipWith_self, Cell.arr.injEq] at hx
        subst hx
        intro g hgm
        obtain ⟨l, hl, rfl⟩ := List.mem_map.1 hgm
        exact handed (hi l hl).1 (hi l hl).2 _
      · obtain ⟨o, ho⟩ := k2 hok
        rw [ho] at hg; injection hg with hg; injection hg with h1 _; cases h1

end Polycap.Get
