import Verif.Props.LeakOff
import Verif.Props.Fresnel
import Mathlib.Analysis.Complex.ExponentialBounds

/-!
# C86: the outcome for one energy does not depend on the other energies
-/
namespace Polycap
open CNum

namespace EInd

theorem normIfNot1_eq (v : V3 ℝ) : normIfNot1 v = if Real.sqrt (dot v v) = 1 then v else vnorm v := by
  have e1 : ((1:ℚ):ℝ) = 1 := by norm_num
  have : v.x * v.x + v.y * v.y + v.z * v.z = dot v v := rfl
  unfold normIfNot1
  simp only [CNum.bne, real_sqrt, real_mul, real_add, real_lit, e1, real_beq, this]
  by_cases h : Real.sqrt (dot v v) = 1 <;> simp [h]

theorem normIfNot1_idem (v : V3 ℝ) : normIfNot1 (normIfNot1 v) = normIfNot1 v := by
  by_cases h : Real.sqrt (dot v v) = 1
  · rw [normIfNot1_eq v, if_pos h, normIfNot1_eq v, if_pos h]
  · rw [normIfNot1_eq v, if_neg h]
    by_cases h0 : dot v v = 0
    · have hz : v = ⟨0, 0, 0⟩ := by
        obtain ⟨x, y, z⟩ := v
        simp only [dot] at h0
        have hx : x = 0 := by nlinarith [mul_self_nonneg x, mul_self_nonneg y, mul_self_nonneg z]
        have hy : y = 0 := by nlinarith [mul_self_nonneg x, mul_self_nonneg y, mul_self_nonneg z]
        have hz : z = 0 := by nlinarith [mul_self_nonneg x, mul_self_nonneg y, mul_self_nonneg z]
        rw [hx, hy, hz]
      have : vnorm (⟨0, 0, 0⟩ : V3 ℝ) = ⟨0, 0, 0⟩ := by
        unfold vnorm; simp
      rw [hz, this, normIfNot1_eq, this]; simp
    · rw [normIfNot1_eq, vnorm_dot _ h0]; simp

/-- fraction reflected at one energy -/
noncomputable def frac (D : Descr ℝ) (n dir E : V3 ℝ) (c : Chan ℝ) : ℝ := (reflPolar c.e D.density c.scatf c.amu n dir E E).1

/-- one channel after the reflection -/
noncomputable def bounce (D : Descr ℝ) (n dir : V3 ℝ) (alfa : ℝ) (E : V3 ℝ) (c : Chan ℝ) : Chan ℝ :=
  { c with w := c.w * frac D n dir E c * roughFactor D.sig_rough c.e alfa }

/-- the electric vector after the reflection -/
noncomputable def turned (n dir E : V3 ℝ) : V3 ℝ :=
  let n := normIfNot1 n
  let E := normIfNot1 E
  let s := vnorm (cross n dir)
  let p := vnorm (cross dir s)
  let a := scalar E s
  let fs := a *. a
  let fp := lit 1 -. fs
  let b := scalar E n
  let g := scalar E p
  vnorm ⟨newE E.x a fs b fp g, newE E.y a fs b fp g, newE E.z a fs b fp g⟩

theorem polar_same (D : Descr ℝ) (n dir E E0 ev : V3 ℝ) (c : Chan ℝ) (hE : normIfNot1 E = normIfNot1 E0) :
    (reflPolar c.e D.density c.scatf c.amu n dir E ev).1 = frac D n dir E0 c ∧
    ((frac D n dir E0 c <. lit 0) = true ∨
      ((reflPolar c.e D.density c.scatf c.amu n dir E ev).2.1 = turned n dir E0 ∧
       normIfNot1 (reflPolar c.e D.density c.scatf c.amu n dir E ev).2.2 = normIfNot1 E0)) := by
  unfold frac reflPolar turned
  simp only [hE]
  split
  · refine ⟨rfl, Or.inl ?_⟩
    simp only [real_lt, real_lit]; norm_num
  · split
    · refine ⟨rfl, Or.inl ?_⟩
      simp only [real_lt, real_lit]; norm_num
    · exact ⟨rfl, Or.inr ⟨rfl, normIfNot1_idem _⟩⟩

/-- the reflected fraction is accepted: between 0 and 1 -/
def Acc (D : Descr ℝ) (n dir E : V3 ℝ) (c : Chan ℝ) : Prop := 0 ≤ frac D n dir E c ∧ frac D n dir E c ≤ 1

theorem acc_iff (D : Descr ℝ) (n dir E : V3 ℝ) (c : Chan ℝ) :
    (frac D n dir E c <. lit 0 || frac D n dir E c >. lit 1) = false ↔ Acc D n dir E c := by
  have e0 : ((0:ℚ):ℝ) = 0 := by norm_num
  have e1 : ((1:ℚ):ℝ) = 1 := by norm_num
  simp only [gt, real_lt, real_lit, e0, e1, Bool.or_eq_false_iff, decide_eq_false_iff_not, not_lt]
  rfl

theorem energies_ok (D : Descr ℝ) (n dir : V3 ℝ) (alfa d : ℝ) (leak : Bool) (E0 : V3 ℝ) : ∀ (cs : List (Chan ℝ)) (E ev : V3 ℝ), normIfNot1 E = normIfNot1 E0 →
    ((reflEnergies D n dir alfa leak d cs E ev).ok = true ↔ ∀ c ∈ cs, Acc D n dir E0 c) ∧
    ((∀ c ∈ cs, Acc D n dir E0 c) →
      (reflEnergies D n dir alfa leak d cs E ev).chans = cs.map (bounce D n dir alfa E0) ∧
      (reflEnergies D n dir alfa leak d cs E ev).weightFlag = cs.any (fun c => (bounce D n dir alfa E0 c).w >=. lit (1/10^4)) ∧
      (reflEnergies D n dir alfa leak d cs E ev).ev = if cs.isEmpty then ev else turned n dir E0) := by
  intro cs
  induction cs with
  | nil => intro E ev _; simp [reflEnergies]
  | cons c cs ih =>
    intro E ev hE
    obtain ⟨p1, p2⟩ := polar_same D n dir E E0 ev c hE
    unfold reflEnergies
    simp only [p1]
    by_cases ha : Acc D n dir E0 c
    · have hb := (acc_iff D n dir E0 c).mpr ha
      rw [if_neg (by rw [hb]; simp)]
      rw [Bool.or_eq_false_iff] at hb
      rcases p2 with p2 | ⟨p3, p4⟩
      · rw [hb.1] at p2; simp at p2
      · obtain ⟨i1, i2⟩ := ih _ (reflPolar c.e D.density c.scatf c.amu n dir E ev).2.1 p4
        constructor
        · simp only [i1, List.forall_mem_cons]
          exact ⟨fun h => ⟨ha, h⟩, fun h => h.2⟩
        · intro h
          obtain ⟨j1, j2, j3⟩ := i2 (fun c hc => h c (List.mem_cons_of_mem _ hc))
          refine ⟨?_, ?_, ?_⟩
          · simp only [j1, List.map_cons]; rfl
          · simp only [j2, List.any_cons]; rfl
          · refine Eq.trans j3 ?_
            rw [p3, ite_self]
            rfl
    · have hb : ¬ (frac D n dir E0 c <. lit 0 || frac D n dir E0 c >. lit 1) = false := fun h => ha ((acc_iff _ _ _ _ _).mp h)
      rw [Bool.not_eq_false] at hb
      rw [if_pos hb]
      constructor
      · simp only [Bool.false_eq_true, false_iff]
        exact fun h => ha (h c List.mem_cons_self)
      · intro h
        exact absurd (h c List.mem_cons_self) ha

/-- enough weight left in one of the channels -/
def Alive (cs : List (Chan ℝ)) : Prop := ∃ c ∈ cs, 1 / 10 ^ 4 ≤ c.w

/-- a map of channels that only lowers weights -/
structure Lowers (h : Chan ℝ → Chan ℝ) (cs : List (Chan ℝ)) : Prop where
  low : ∀ c ∈ cs, 0 ≤ c.w → 0 ≤ (h c).w ∧ (h c).w ≤ c.w
  static : ∀ c ∈ cs, (h c).e = c.e ∧ (h c).amu = c.amu ∧ (h c).scatf = c.scatf

/-- the glass refracts at the energies of the channels: in the range of the library, and the refractive index has a positive real part -/
structure Glass (D : Descr ℝ) (cs : List (Chan ℝ)) : Prop where
  density : 0 < D.density
  chan : ∀ c ∈ cs, 1 ≤ c.e ∧ c.e ≤ 100 ∧ 0 ≤ c.scatf ∧ 0 ≤ c.amu ∧ reflAlfa c.e D.density c.scatf < 1

theorem Glass.map {D : Descr ℝ} {cs : List (Chan ℝ)} (g : Glass D cs) {h : Chan ℝ → Chan ℝ} (l : Lowers h cs) : Glass D (cs.map h) := by
  refine ⟨g.density, ?_⟩
  intro c hc
  obtain ⟨x, hx, rfl⟩ := List.mem_map.mp hc
  obtain ⟨a, b, c⟩ := l.static x hx
  rw [a, b, c]
  exact g.chan x hx

theorem Glass.acc {D : Descr ℝ} {cs : List (Chan ℝ)} (g : Glass D cs) {n dir E : V3 ℝ} (ha : 0 ≤ dot n dir) : ∀ c ∈ cs, Acc D n dir E c := by
  intro c hc
  obtain ⟨a, b, u, v, w⟩ := g.chan c hc
  exact reflectivity_probability c.e D.density c.scatf c.amu n dir E E ⟨a, b⟩ g.density u v w ha

theorem lowers_id (cs : List (Chan ℝ)) : Lowers id cs := ⟨fun _ _ hw => ⟨hw, le_refl _⟩, fun _ _ => ⟨rfl, rfl, rfl⟩⟩

theorem any_alive (h : Chan ℝ → Chan ℝ) (cs : List (Chan ℝ)) : cs.any (fun c => (h c).w >=. lit (1/10^4)) = true ↔ Alive (cs.map h) := by
  have e4 : ((1/10^4:ℚ):ℝ) = 1/10^4 := by norm_num
  unfold Alive
  simp only [List.any_eq_true, ge, real_le, real_lit, e4, decide_eq_true_eq, List.mem_map]
  constructor
  · rintro ⟨c, h1, h2⟩; exact ⟨h c, ⟨c, h1, rfl⟩, h2⟩
  · rintro ⟨_, ⟨c, h1, rfl⟩, h2⟩; exact ⟨c, h1, h2⟩

theorem reflect_sub (D : Descr ℝ) (fuel k fuel' k' : Nat) (n : V3 ℝ) (P : Photon ℝ) (c : Int) (P' : Photon ℝ)
    (hr : reflect D false fuel k n P = .ok (c, P')) (hc : c ≠ -1 ∨ Glass D P.chans) :
    ∃ h : Chan ℝ → Chan ℝ, P'.chans = P.chans.map h ∧ Lowers h P.chans ∧ (c = -1 ∨ c = 0 ∨ c = 1) ∧
      ∀ cs, cs ⊆ P.chans → cs ≠ [] → ∃ c', reflect D false fuel' (k' + 1) n { P with chans := cs } = .ok (c', { P' with chans := cs.map h }) ∧
        (c' = c ∨ (c' = 0 ∧ c = 1 ∧ ¬ Alive (cs.map h) ∧ Alive P'.chans)) := by
  cases k with
  | zero => simp [reflect] at hr
  | succ k =>
    have key : ∀ fuel k (P : Photon ℝ), reflect D false fuel (k + 1) n P = (if (scalar (vnorm P.exitD) (vnorm n) <. lit 0) = true then
        .ok (-1, { P with exitD := vnorm P.exitD }) else
        reflectRest D false (fun q r ix T => capilTrace D (reflect D false fuel k) (capxOf D q r) (capyOf D q r) ix T) (vnorm n)
          (scalar (vnorm P.exitD) (vnorm n)) { P with exitD := vnorm P.exitD } ⟨0, lit 0, 0, 0⟩) := fun _ _ _ => rfl
    rw [key] at hr
    simp only [key]
    split at hr
    · rename_i ha
      injection hr with hr; injection hr with h1 h2
      subst h1 h2
      refine ⟨id, (List.map_id _).symm, lowers_id _, Or.inl rfl, ?_⟩
      intro cs _ _
      refine ⟨-1, ?_, Or.inl rfl⟩
      rw [if_pos ha, List.map_id]
    rename_i ha
    have hdot : 0 ≤ dot (vnorm n) (vnorm P.exitD) := by
      have e0 : ((0:ℚ):ℝ) = 0 := by norm_num
      simp only [real_lt, real_lit, e0, decide_eq_true_eq, not_lt, scalar_real] at ha
      unfold dot at ha ⊢
      linarith
    unfold reflectRest at hr
    rw [if_neg (by simp)] at hr
    split at hr
    · simp at hr
    rename_i hco
    obtain ⟨k1, k2⟩ := energies_ok D (vnorm n) (vnorm P.exitD) (scalar (vnorm P.exitD) (vnorm n)) (lit 0) false P.exitE P.chans P.exitE P.exitE rfl
    simp only at hr
    split at hr
    · rename_i hok
      exfalso
      rcases hc with hc | hc
      · injection hr with hr; injection hr with h1 h2; exact absurd h1.symm hc
      · have := k1.mpr (hc.acc hdot)
        rw [this] at hok
        simp at hok
    rename_i hok
    simp only [Bool.not_eq_true', Bool.not_eq_false] at hok
    have hacc := k1.mp hok
    obtain ⟨j1, j2, j3⟩ := k2 hacc
    have hfl : ∀ cs E ev, (reflEnergies D (vnorm n) (vnorm P.exitD) (scalar (vnorm P.exitD) (vnorm n)) false (lit 0) cs E ev).leakFlag = false := by
      intro cs E ev
      exact reflEnergies_leakFlag_off _ _ _ _ _ _ _ _
    rw [if_neg (by rw [hfl]; simp)] at hr
    injection hr with hr; injection hr with h1 h2
    have hal : c = 1 ∧ Alive P'.chans ∨ c = 0 ∧ ¬ Alive P'.chans := by
      rw [← h1, ← h2]
      simp only [j1, j2]
      by_cases hx : Alive (P.chans.map (bounce D (vnorm n) (vnorm P.exitD) (scalar (vnorm P.exitD) (vnorm n)) P.exitE))
      · left; exact ⟨if_pos ((any_alive _ _).mpr hx), hx⟩
      · right; exact ⟨if_neg (fun h => hx ((any_alive _ _).mp h)), hx⟩
    refine ⟨bounce D (vnorm n) (vnorm P.exitD) (scalar (vnorm P.exitD) (vnorm n)) P.exitE, ?_, ⟨?_, fun _ _ => ⟨rfl, rfl, rfl⟩⟩, by omega, ?_⟩
    · rw [← h2]; exact j1
    · intro c hm hw
      obtain ⟨a1, a2⟩ := hacc c hm
      obtain ⟨b1, b2⟩ := roughFactor_bounds D.sig_rough c.e (scalar (vnorm P.exitD) (vnorm n))
      unfold bounce
      simp only
      have m1 : 0 ≤ c.w * frac D (vnorm n) (vnorm P.exitD) P.exitE c := mul_nonneg hw a1
      refine ⟨mul_nonneg m1 b1, ?_⟩
      calc c.w * frac D (vnorm n) (vnorm P.exitD) P.exitE c * _ ≤ c.w * frac D (vnorm n) (vnorm P.exitD) P.exitE c := mul_le_of_le_one_right m1 b2
        _ ≤ c.w := mul_le_of_le_one_right hw a2
    · intro cs hsub hne
      rw [if_neg ha]
      unfold reflectRest
      rw [if_neg (by simp)]
      have hPne : P.chans.isEmpty = false := by
        rw [List.isEmpty_eq_false_iff]
        intro hP
        rw [hP] at hsub
        exact hne (List.subset_nil.mp hsub)
      have hcse : cs.isEmpty = false := by rw [List.isEmpty_eq_false_iff]; exact hne
      have hcoef : P.coef = true := by
        simp only [hPne, Bool.not_false, Bool.and_true, Bool.not_eq_true', Bool.not_eq_false] at hco
        exact hco
      obtain ⟨l1, l2⟩ := energies_ok D (vnorm n) (vnorm P.exitD) (scalar (vnorm P.exitD) (vnorm n)) (lit 0) false P.exitE cs P.exitE P.exitE rfl
      have hacc' := fun c hm => hacc c (hsub hm)
      obtain ⟨m1, m2, m3⟩ := l2 hacc'
      refine ⟨if (cs.any fun c => (bounce D (vnorm n) (vnorm P.exitD) (scalar (vnorm P.exitD) (vnorm n)) P.exitE c).w >=. lit (1/10^4)) = true then 1 else 0, ?_, ?_⟩
      · refine Eq.trans (if_neg (by simp [hcoef])) (Eq.trans (if_neg (by simp only [Bool.not_eq_true', Bool.not_eq_false]; exact l1.mpr hacc')) (Eq.trans (if_neg (by
          simp only [Bool.not_eq_true]; exact hfl _ _ _)) ?_))
        simp only [m1, m2, m3, hcse, Bool.false_eq_true, if_false, ← h2, j3, hPne]
      · by_cases hx : Alive (cs.map (bounce D (vnorm n) (vnorm P.exitD) (scalar (vnorm P.exitD) (vnorm n)) P.exitE))
        · left
          rw [if_pos ((any_alive _ _).mpr hx)]
          rcases hal with ⟨h, -⟩ | ⟨-, h⟩
          · exact h.symm
          · exfalso
            apply h
            obtain ⟨y, hy, hy'⟩ := hx
            obtain ⟨z, hz, rfl⟩ := List.mem_map.mp hy
            refine ⟨_, ?_, hy'⟩
            rw [← h2]
            simp only [j1]
            exact List.mem_map.mpr ⟨z, hsub hz, rfl⟩
        · rw [if_neg (fun h => hx ((any_alive _ _).mp h))]
          rcases hal with ⟨h, h'⟩ | ⟨h, -⟩
          · exact Or.inr ⟨rfl, h, hx, h'⟩
          · exact Or.inl h.symm

theorem search_chans (D : Descr ℝ) (capx capy : Nat → ℝ) (P : Photon ℝ) (cs : List (Chan ℝ)) : ∀ (k i : Nat) (cur nrm : V3 ℝ),
    traceSearch D capx capy { P with chans := cs } k i cur nrm = traceSearch D capx capy P k i cur nrm := by
  intro k
  induction k with
  | zero => intro i cur nrm; rfl
  | succ k ih =>
    intro i cur nrm
    unfold traceSearch
    simp only [ih]

/-- What a computation with all channels tells about the one with the channels `cs`: `run` the latter's result; the former returned `c`, `ix`, `P'`
and turned the channels by `h`. -/
def Follows (c : Int) (ix : Nat) (P' : Photon ℝ) (h : Chan ℝ → Chan ℝ) (all cs : List (Chan ℝ)) (run : Out (Int × Nat × Photon ℝ)) : Prop :=
  run = .ok (c, ix, { P' with chans := cs.map h }) ∨
  ∃ ix' Q' h', run = .ok (0, ix', Q') ∧ Q'.chans = cs.map h' ∧ (∀ x ∈ cs, (h x).w ≤ (h' x).w ∧ (h' x).w < 1 / 10 ^ 4) ∧
    ∃ y ∈ all, y ∉ cs ∧ 1 / 10 ^ 4 ≤ (h' y).w

theorem trace_sub (D : Descr ℝ) (fuel k fuel' k' : Nat) (capx capy : Nat → ℝ) (ix : Nat) (P : Photon ℝ)
    (c : Int) (ix' : Nat) (P' : Photon ℝ) (ht : trace D false fuel k capx capy ix P = .ok (c, ix', P')) (hc : c ≠ -1 ∨ Glass D P.chans) :
    ∃ h : Chan ℝ → Chan ℝ, P'.chans = P.chans.map h ∧ Lowers h P.chans ∧
      ∀ cs, cs ⊆ P.chans → cs ≠ [] → Follows c ix' P' h P.chans cs (trace D false fuel' (k' + 1) capx capy ix { P with chans := cs }) := by
  unfold trace capilTrace at ht
  unfold trace capilTrace
  simp only at ht ⊢
  have e := fun cs => search_chans D capx capy { P with exitD := vnorm P.exitD, startD := vnorm P.startD } cs (D.prof.nmax - ix) ix P.exitC ⟨lit 0, lit 0, lit 0⟩
  simp only at e
  simp only [e]
  have hid := lowers_id
  cases hs : traceSearch D capx capy { P with exitD := vnorm P.exitD, startD := vnorm P.startD } (D.prof.nmax - ix) ix P.exitC ⟨lit 0, lit 0, lit 0⟩ with
  | ret code =>
    rw [hs] at ht
    injection ht with h; injection h with h1 h; injection h with h2 h3; subst h1 h2 h3
    exact ⟨id, (List.map_id _).symm, hid _, fun cs _ _ => Or.inl (by simp only [List.map_id])⟩
  | miss =>
    rw [hs] at ht
    injection ht with h; injection h with h1 h; injection h with h2 h3; subst h1 h2 h3
    exact ⟨id, (List.map_id _).symm, hid _, fun cs _ _ => Or.inl (by simp only [List.map_id])⟩
  | hit i v n ca =>
    rw [hs] at ht
    simp only at ht ⊢
    unfold traceHit at ht ⊢
    simp only at ht ⊢
    split at ht
    · injection ht with h; injection h with h1 h; injection h with h2 h3; subst h1 h2 h3
      rename_i q1
      simp only [if_pos q1]
      exact ⟨id, (List.map_id _).symm, hid _, fun cs _ _ => Or.inl (by simp only [List.map_id])⟩
    rename_i q1
    simp only [if_neg q1]
    split at ht
    · simp at ht
    rename_i q2
    simp only [if_neg q2]
    split at ht
    · injection ht with h; injection h with h1 h; injection h with h2 h3; subst h1 h2 h3
      rename_i q3
      simp only [if_pos q3]
      exact ⟨id, (List.map_id _).symm, hid _, fun cs _ _ => Or.inl (by simp only [List.map_id])⟩
    rename_i q3
    simp only [if_neg q3]
    split at ht
    · injection ht with h; injection h with h1 h; injection h with h2 h3; subst h1 h2 h3
      rename_i q4
      simp only [if_pos q4]
      exact ⟨id, (List.map_id _).symm, hid _, fun cs _ _ => Or.inl (by simp only [List.map_id])⟩
    rename_i q4
    simp only [if_neg q4]
    rw [Out.bind_eq_ok] at ht
    obtain ⟨⟨c1, P1⟩, hr, ht⟩ := ht
    injection ht with h
    have hcc : c1 ≠ -1 ∨ Glass D P.chans := by
      rcases hc with hc | hc
      · left
        unfold afterReflect at h
        intro hh
        split at h
        · rename_i q; simp at q; omega
        · split at h
          · injection h with h1 h; exact absurd h1.symm hc
          · injection h with h1 h; simp at h1; omega
      · exact Or.inr hc
    obtain ⟨g, g1, g2, g3, g4⟩ := reflect_sub D fuel k fuel' k' n _ c1 P1 hr hcc
    have hchans : P'.chans = P1.chans := by
      unfold afterReflect at h
      split at h
      · injection h with h1 h; injection h with h2 h3; rw [← h3]
      · split at h
        · injection h with h1 h; injection h with h2 h3; rw [← h3]
        · injection h with h1 h; injection h with h2 h3; rw [← h3]
    refine ⟨g, by rw [hchans]; exact g1, g2, ?_⟩
    intro cs hsub hne
    obtain ⟨c', hr', hcase⟩ := g4 cs hsub hne
    simp only at hr'
    rw [hr', Out.bind_ok]
    rcases hcase with rfl | ⟨rfl, rfl, hal, hal'⟩
    · left
      unfold afterReflect at h ⊢
      simp only at h ⊢
      split at h
      · rename_i q
        rw [if_pos q]
        injection h with h1 h; injection h with h2 h3; subst h1 h2 h3
        rfl
      · rename_i q
        rw [if_neg q]
        split at h
        · rename_i q'
          rw [if_pos q']
          injection h with h1 h; injection h with h2 h3; subst h1 h2 h3
          rfl
        · rename_i q'
          rw [if_neg q']
          injection h with h1 h; injection h with h2 h3; subst h1 h2 h3
          rfl
    · right
      refine ⟨segIdFrom D.prof.z (i + 1) v.z D.prof.nmax, { P1 with chans := cs.map g }, g, rfl, rfl, ?_, ?_⟩
      · intro x hx
        refine ⟨le_refl _, ?_⟩
        by_contra hlt
        exact hal ⟨g x, List.mem_map.mpr ⟨x, hx, rfl⟩, not_lt.mp hlt⟩
      · obtain ⟨x, hx, hx'⟩ := hal'
        rw [g1] at hx
        obtain ⟨y, hy, rfl⟩ := List.mem_map.mp hx
        exact ⟨y, hy, fun hm => hal ⟨g y, List.mem_map.mpr ⟨y, hm, rfl⟩, hx'⟩, hx'⟩

theorem loop_sub (D : Descr ℝ) (fuel k fuel' k' : Nat) (capx capy : Nat → ℝ) :
    ∀ (m : Nat) (iesc : Int) (ix : Nat) (P : Photon ℝ) (c : Int) (ix' : Nat) (P' : Photon ℝ), (∀ x ∈ P.chans, 0 ≤ x.w) →
      traceLoop (trace D false fuel k capx capy) m iesc ix P = .ok (c, ix', P') → (c ≠ -1 ∨ Glass D P.chans) →
      ∃ h : Chan ℝ → Chan ℝ, P'.chans = P.chans.map h ∧ Lowers h P.chans ∧
        ∀ cs, cs ⊆ P.chans → cs ≠ [] → Follows c ix' P' h P.chans cs (traceLoop (trace D false fuel' (k' + 1) capx capy) m iesc ix { P with chans := cs }) := by
  intro m
  induction m with
  | zero =>
    intro iesc ix P c ix' P' _ h _
    simp only [traceLoop] at h ⊢
    injection h with h; injection h with h1 h; injection h with h2 h3; subst h1 h2 h3
    exact ⟨id, (List.map_id _).symm, lowers_id _, fun cs _ _ => Or.inl (by simp only [List.map_id])⟩
  | succ m ih =>
    intro iesc ix P c ix' P' hw h hc
    unfold traceLoop at h
    rw [Out.bind_eq_ok] at h
    obtain ⟨⟨c1, ix1, P1⟩, ht, h⟩ := h
    simp only at h
    by_cases hc1 : c1 = 1
    · rw [if_neg (by simp [hc1])] at h
      obtain ⟨h1, a1, a2, a3⟩ := trace_sub D fuel k fuel' k' capx capy ix P c1 ix1 P1 ht (Or.inl (by omega))
      have hw1 : ∀ x ∈ P1.chans, 0 ≤ x.w := by
        intro x hx
        rw [a1] at hx
        obtain ⟨y, hy, rfl⟩ := List.mem_map.mp hx
        exact (a2.low y hy (hw y hy)).1
      obtain ⟨h2, b1, b2, b3⟩ := ih _ _ _ _ _ _ hw1 h (hc.imp id (fun g => by rw [a1]; exact g.map a2))
      refine ⟨h2 ∘ h1, by rw [b1, a1, List.map_map], ⟨?_, ?_⟩, ?_⟩
      · intro x hx hx0
        obtain ⟨u1, u2⟩ := a2.low x hx hx0
        obtain ⟨v1, v2⟩ := b2.low (h1 x) (by rw [a1]; exact List.mem_map.mpr ⟨x, hx, rfl⟩) u1
        exact ⟨v1, v2.trans u2⟩
      · intro x hx
        obtain ⟨u1, u2, u3⟩ := a2.static x hx
        obtain ⟨v1, v2, v3⟩ := b2.static (h1 x) (by rw [a1]; exact List.mem_map.mpr ⟨x, hx, rfl⟩)
        exact ⟨v1.trans u1, v2.trans u2, v3.trans u3⟩
      · intro cs hsub hne
        have hlow : ∀ x ∈ cs, ((h2 ∘ h1) x).w ≤ (h1 x).w := by
          intro x hx
          exact (b2.low (h1 x) (by rw [a1]; exact List.mem_map.mpr ⟨x, hsub hx, rfl⟩) (a2.low x (hsub hx) (hw x (hsub hx))).1).2
        unfold traceLoop
        rcases a3 cs hsub hne with e | ⟨iy, Q', h', e, e1, e2, e3⟩
        · rw [e, Out.bind_ok]
          simp only
          rw [if_neg (by simp [hc1])]
          rcases b3 (cs.map h1) (by rw [a1]; exact List.map_subset _ hsub) (by simpa using hne) with f | ⟨iy, Q', h', f, f1, f2, y, f3, f4, f5⟩
          · left
            rw [f, List.map_map]
          · right
            refine ⟨iy, Q', h' ∘ h1, f, by rw [f1, List.map_map], ?_, ?_⟩
            · intro x hx
              exact f2 (h1 x) (List.mem_map.mpr ⟨x, hx, rfl⟩)
            · rw [a1] at f3
              obtain ⟨y', hy', rfl⟩ := List.mem_map.mp f3
              exact ⟨y', hy', fun hm => f4 (List.mem_map.mpr ⟨y', hm, rfl⟩), f5⟩
        · right
          refine ⟨iy, Q', h', ?_, e1, ?_, e3⟩
          · rw [e, Out.bind_ok]
            simp only
            rw [if_pos (by decide)]
          · intro x hx
            exact ⟨(hlow x hx).trans (e2 x hx).1, (e2 x hx).2⟩
    · rw [if_pos hc1] at h
      injection h with h; injection h with h1 h; injection h with h2 h3; subst h1 h2 h3
      obtain ⟨g, a1, a2, a3⟩ := trace_sub D fuel k fuel' k' capx capy ix P _ _ _ ht hc
      refine ⟨g, a1, a2, ?_⟩
      intro cs hsub hne
      unfold traceLoop
      rcases a3 cs hsub hne with e | ⟨iy, Q', h', e, e1, e2, e3⟩
      · left
        rw [e, Out.bind_ok]
        simp only
        rw [if_pos hc1]
      · right
        refine ⟨iy, Q', h', ?_, e1, e2, e3⟩
        rw [e, Out.bind_ok]
        simp only
        rw [if_pos (by decide)]

end EInd

/-- The glass refracts at these energies: the scattering factor and the absorption coefficient are non-negative and the refractive index
(1 - `reflAlfa` is its real part) has a positive real part. -/
structure Refracts (lib : Xray ℝ) (D : Descr ℝ) (es : List ℝ) : Prop where
  density : 0 < D.density
  scatf : ∀ e ∈ es, 0 ≤ scatfOf lib D e
  amu : ∀ e ∈ es, 0 ≤ amuOf lib D e
  index : ∀ e ∈ es, reflAlfa e D.density (scatfOf lib D e) < 1

/-- **C86.** Without leak calculation, a launch with the energies `es` (that does not end with -1, or else the glass refracts at all of them) gives each energy its weight `f e`; the launch of the same
photon with some of these energies (in any order, any of them repeated) either ends in the same way – same return value, same photon, and each
energy has the same weight `f e` – or it ends with 0 (absorbed): at a reflection the weights `f'` of all its energies were below 10⁻⁴, but another
energy in `es` still had more and the launch with `es` went on (so that it gives these energies even smaller weights). -/
theorem launch_energies_independent (lib : Xray ℝ) (D : Descr ℝ) (fuel k fuel' k' : Nat) (P : Photon ℝ) (es es' : List ℝ)
    (hes : es' ≠ []) (hsub : es' ⊆ es) (hb : ∀ e ∈ es, 1 ≤ e ∧ e ≤ 100)
    (c : Int) (ws : List ℝ) (P1 : Photon ℝ)
    (h : launch lib (some D) false fuel k (some P) (some es) true = .ok (c, .filled ws, some P1)) (hc : c ≠ -1 ∨ Refracts lib D es) :
    ∃ f : ℝ → ℝ, ws = es.map f ∧
      (launch lib (some D) false fuel' (k' + 1) (some P) (some es') true = .ok (c, .filled (es'.map f), some P1) ∨
       ∃ f' P1', launch lib (some D) false fuel' (k' + 1) (some P) (some es') true = .ok (0, .filled (es'.map f'), some P1') ∧
         (∀ e ∈ es', f e ≤ f' e ∧ f' e < 1 / 10 ^ 4) ∧ ∃ e ∈ es, e ∉ es' ∧ 1 / 10 ^ 4 ≤ f' e) := by
  have hne : es ≠ [] := by
    intro h0; rw [h0] at hsub; exact hes (List.subset_nil.mp hsub)
  obtain ⟨D', P'', es'', e1, e2, e3, -, -, -, hl⟩ := launch_valid lib (some D) false fuel k (some P) (some es) true (not_argsBad hne hb)
  injection e1 with e1; injection e2 with e2; injection e3 with e3; subst e1 e2 e3
  obtain ⟨D', P'', es'', e1, e2, e3, -, -, -, hl'⟩ := launch_valid lib (some D) false fuel' (k' + 1) (some P) (some es') true
    (not_argsBad hes (fun e he => hb e (hsub he)))
  injection e1 with e1; injection e2 with e2; injection e3 with e3; subst e1 e2 e3
  rw [hl, Out.bind_eq_ok] at h
  rw [hl']
  obtain ⟨⟨c0, o0, P0⟩, h, h'⟩ := h
  injection h' with h'; injection h' with a h'; injection h' with b h'; injection h' with h'
  simp only at a b h'
  subst a b h'
  have hscat : scatfRejects D es = scatfRejects D es' := by
    have : scatfRejects D es = false ↔ scatfRejects D es' = false := by
      rw [scatf_accepts_iff, scatf_accepts_iff]
      constructor
      · rintro ⟨h1, h2, -, -, h3⟩; exact ⟨h1, h2, hes, fun e he => hb e (hsub he), h3⟩
      · rintro ⟨h1, h2, -, -, h3⟩; exact ⟨h1, h2, hne, hb, h3⟩
    cases h1 : scatfRejects D es <;> cases h2 : scatfRejects D es' <;> simp_all
  let mk : ℝ → Chan ℝ := fun e => ⟨e, lit 1, amuOf lib D e, scatfOf lib D e⟩
  have hinit : launchInit lib D es' P = { launchInit lib D es P with chans := es'.map mk } := by
    unfold launchInit
    rw [hscat]
  have hch : (launchInit lib D es P).chans = es.map mk := rfl
  unfold launchBody at h ⊢
  simp only at h ⊢
  have hst : (launchInit lib D es' P).startC = (launchInit lib D es P).startC := rfl
  rw [hst]
  split at h
  · simp at h
  rename_i qr hq
  split at h
  · exfalso
    simp at h
  · rename_i hw
    simp only [if_neg hw]
    unfold launchInside at h ⊢
    simp only at h ⊢
    rw [Out.bind_eq_ok] at h
    obtain ⟨⟨c1, ix1, Q1⟩, ht, h⟩ := h
    simp only at h
    injection h with h; injection h with a h; injection h with b h
    have hc1 : c1 ≠ -1 ∨ EInd.Glass D (launchInit lib D es P).chans := by
      rcases hc with hc | hc
      · left
        intro hh
        rw [if_pos (Or.inl hh)] at a
        exact hc a.symm
      · right
        refine ⟨hc.density, ?_⟩
        rw [hch]; intro x hx
        obtain ⟨e, he, rfl⟩ := List.mem_map.mp hx
        exact ⟨(hb e he).1, (hb e he).2, hc.scatf e he, hc.amu e he, hc.index e he⟩
    obtain ⟨g, g1, g2, g3⟩ := EInd.loop_sub D fuel k fuel' k' _ _ _ _ _ _ _ _ _ (by
      rw [hch]; intro x hx
      obtain ⟨e, -, rfl⟩ := List.mem_map.mp hx
      show (0:ℝ) ≤ lit 1
      rw [real_lit]; norm_num) ht hc1
    have g4 := g3 (es'.map mk) (by rw [hch]; exact List.map_subset _ hsub) (by simpa using hes)
    rw [← hinit] at g4
    injection b with b
    refine ⟨fun e => (g (mk e)).w, by rw [← b, g1, hch, List.map_map, List.map_map]; rfl, ?_⟩
    rcases g4 with e | ⟨iy, Q', h', e, f1, f2, y, f3, f4, f5⟩
    · left
      rw [hst] at *
      rw [e, Out.bind_ok]
      simp only [a, List.map_map]
      rw [← h]
      rfl
    · right
      refine ⟨fun e => (h' (mk e)).w, finish Q', ?_, ?_, ?_⟩
      · rw [hst] at *
        rw [e, Out.bind_ok]
        simp only [f1, List.map_map]
        simp only [if_neg (show ¬ ((0:ℤ) = -1 ∨ (0:ℤ) = -3) from by decide), if_true]
        rfl
      · intro x hx
        exact f2 (mk x) (List.mem_map.mpr ⟨x, hx, rfl⟩)
      · rw [hch] at f3
        obtain ⟨y', hy', rfl⟩ := List.mem_map.mp f3
        exact ⟨y', hy', fun hm => f4 (List.mem_map.mpr ⟨y', hm, rfl⟩), f5⟩

/-- **C86.** The order of the energies and repetitions among them do not matter. -/
theorem launch_energies_order (lib : Xray ℝ) (D : Descr ℝ) (fuel k fuel' k' : Nat) (P : Photon ℝ) (es es' : List ℝ)
    (hes : es' ≠ []) (hsame : ∀ e, e ∈ es' ↔ e ∈ es) (hb : ∀ e ∈ es, 1 ≤ e ∧ e ≤ 100)
    (c : Int) (ws : List ℝ) (P1 : Photon ℝ)
    (h : launch lib (some D) false fuel k (some P) (some es) true = .ok (c, .filled ws, some P1)) (hc : c ≠ -1 ∨ Refracts lib D es) :
    ∃ f : ℝ → ℝ, ws = es.map f ∧ launch lib (some D) false fuel' (k' + 1) (some P) (some es') true = .ok (c, .filled (es'.map f), some P1) := by
  obtain ⟨f, hf, e | ⟨f', P1', -, -, e, he, hn, -⟩⟩ := launch_energies_independent lib D fuel k fuel' k' P es es' hes (fun e he => (hsame e).mp he) hb c ws P1 h hc
  · exact ⟨f, hf, e⟩
  · exact absurd ((hsame e).mpr he) hn

/-! ## An example: two energies in a rough tube -/
namespace RoughTube
open WideTube EInd

/-- the thick-walled tube with a roughness of 50 -/
noncomputable def rD : Descr ℝ := { wD with sig_rough := 50 }

/-- the channels of some energies and weights -/
noncomputable def rCh (e w : ℝ) : Chan ℝ := ⟨e, w, 0, 1/2⟩

theorem r_glass {cs : List (Chan ℝ)} (h : ∀ c ∈ cs, 1 ≤ c.e ∧ c.e ≤ 100 ∧ c.amu = 0 ∧ c.scatf = 1/2) : Glass rD cs := by
  refine ⟨by norm_num [rD, wD], ?_⟩
  intro c hc
  obtain ⟨a, b, u, v⟩ := h c hc
  refine ⟨a, b, by rw [v]; norm_num, by rw [u], ?_⟩
  rw [v]
  simp only [reflAlfa, cHC, cNAVOG, cR0, mpi, real_mul, real_div, real_lit, rD, wD]
  have he : (c.e)⁻¹ ≤ 1 := inv_le_one_of_one_le₀ a
  have he0 : 0 < (c.e)⁻¹ := by positivity
  have h2 : (c.e)⁻¹ * (c.e)⁻¹ ≤ 1 := by nlinarith
  simp only [div_eq_mul_inv] at *
  have hx : ∀ k m : ℝ, 0 ≤ k → 0 ≤ m → k * k * m < 1 → k * (c.e)⁻¹ * (k * (c.e)⁻¹) * m < 1 := by
    intro k m hk hm h
    have : k * (c.e)⁻¹ * (k * (c.e)⁻¹) * m = (k * k * m) * ((c.e)⁻¹ * (c.e)⁻¹) := by ring
    rw [this]
    have : 0 ≤ k * k * m := by positivity
    nlinarith
  rw [mul_assoc (_ * _) _ (1 * 2⁻¹ : ℝ)]
  apply hx <;> norm_num

theorem r_search (P : Photon ℝ) : ∀ k i cur nrm, traceSearch rD (axX rD (0, 0)) (axY rD (0, 0)) P k i cur nrm =
    traceSearch wD (axX wD (0, 0)) (axY wD (0, 0)) P k i cur nrm := by
  intro k
  induction k with
  | zero => intro i cur nrm; rfl
  | succ k ih =>
    intro i cur nrm
    unfold traceSearch
    simp only [ih]
    rfl

theorem r_reflect (fuel k : Nat) {e : ℝ} (he : e ^ 2 = 1) (P : Photon ℝ) (hD : P.exitD = ⟨e * zs, 0, zc⟩) (hco : P.coef = true) (hg : Glass rD P.chans) :
    ∃ c E', reflect rD false fuel (k + 1) ⟨e, 0, 0⟩ P =
        .ok (c, { P with exitE := E', chans := P.chans.map (bounce rD ⟨e, 0, 0⟩ ⟨e * zs, 0, zc⟩ zs P.exitE) }) ∧
      (c = 1 ∧ Alive (P.chans.map (bounce rD ⟨e, 0, 0⟩ ⟨e * zs, 0, zc⟩ zs P.exitE)) ∨
       c = 0 ∧ ¬ Alive (P.chans.map (bounce rD ⟨e, 0, 0⟩ ⟨e * zs, 0, zc⟩ zs P.exitE))) := by
  have e0 : ((0:ℚ):ℝ) = 0 := by norm_num
  have hu : vnorm (⟨e * zs, 0, zc⟩ : V3 ℝ) = ⟨e * zs, 0, zc⟩ := vnorm_unit _ (by unfold dot; nlinarith [zUnit])
  have hn : vnorm (⟨e, 0, 0⟩ : V3 ℝ) = ⟨e, 0, 0⟩ := vnorm_unit _ (by unfold dot; nlinarith)
  have hsc : scalar (⟨e * zs, 0, zc⟩ : V3 ℝ) ⟨e, 0, 0⟩ = zs := by
    rw [scalar_real]; unfold dot; simp only; linear_combination zs * he
  have hneg : ((zs : ℝ) <. lit 0) = false := by
    simp only [real_lt, real_lit, e0, decide_eq_false_iff_not]; norm_num [zs]
  obtain ⟨k1, k2⟩ := energies_ok rD ⟨e, 0, 0⟩ ⟨e * zs, 0, zc⟩ zs (lit 0) false P.exitE P.chans P.exitE P.exitE rfl
  have hacc := hg.acc (n := ⟨e, 0, 0⟩) (dir := ⟨e * zs, 0, zc⟩) (E := P.exitE) (by
    unfold dot; simp only
    have : e * (e * zs) + 0 * 0 + 0 * zc = zs := by linear_combination zs * he
    rw [this]; norm_num [zs])
  obtain ⟨m1, m2, m3⟩ := k2 hacc
  have hok := k1.mpr hacc
  have hfl := reflEnergies_leakFlag_off rD ⟨e, 0, 0⟩ ⟨e * zs, 0, zc⟩ zs (lit 0) P.chans P.exitE P.exitE
  refine ⟨if (P.chans.any fun c => (bounce rD ⟨e, 0, 0⟩ ⟨e * zs, 0, zc⟩ zs P.exitE c).w >=. lit (1/10^4)) = true then 1 else 0,
    if P.chans.isEmpty = true then P.exitE else turned ⟨e, 0, 0⟩ ⟨e * zs, 0, zc⟩ P.exitE, ?_, ?_⟩
  · unfold reflect reflectBody
    simp only [hD, hu, hn, hsc, hneg, Bool.false_eq_true, if_false, wallOf, renorm, Out.bind_ok]
    unfold reflectRest
    rw [if_neg (by simp)]
    refine Eq.trans (if_neg (by simp [hco])) (Eq.trans (if_neg (by simp only [Bool.not_eq_true', Bool.not_eq_false]; exact hok)) (Eq.trans (if_neg (by
          simp only [Bool.not_eq_true]; exact hfl)) ?_))
    simp only [m1, m2, m3]
  · by_cases hx : Alive (P.chans.map (bounce rD ⟨e, 0, 0⟩ ⟨e * zs, 0, zc⟩ zs P.exitE))
    · left; exact ⟨if_pos ((any_alive _ _).mpr hx), hx⟩
    · right; exact ⟨if_neg (fun h => hx ((any_alive _ _).mp h)), hx⟩

/-- one call of the tracing function: at the wall, mirrored unless all energies are absorbed -/
theorem r_trace {e z0 : ℝ} (he : e ^ 2 = 1) (fuel k : Nat) (P : Photon ℝ) (hD : P.exitD = ⟨e * zs, 0, zc⟩)
    (hC : P.exitC = ⟨e * (zR / (1/2)) * (P.exitC.z - z0), 0, P.exitC.z⟩)
    (hb : z0 - 1/2 < P.exitC.z + 1 / 10 ^ 5) (ha : P.exitC.z + 1 / 10 ^ 5 ≤ z0 + 1/2) (h3 : z0 + 1/2 ≤ 3) (h0 : 0 ≤ z0)
    (hco : P.coef = true) (hg : Glass rD P.chans) :
    ∃ c Q, trace rD false fuel (k + 1) (axX rD (0, 0)) (axY rD (0, 0)) 0 P = .ok (c, 0, Q) ∧
      Q.chans = P.chans.map (bounce rD ⟨e, 0, 0⟩ ⟨e * zs, 0, zc⟩ zs P.exitE) ∧ Q.coef = true ∧ Q.exitC = ⟨e * zR, 0, z0 + 1/2⟩ ∧
      (c = 1 ∧ Alive Q.chans ∧ Q.exitD = ⟨(-e) * zs, 0, zc⟩ ∨ c = 0 ∧ ¬ Alive Q.chans) := by
  have e1 : ((1:ℚ):ℝ) = 1 := by norm_num
  have e2 : ((2:ℚ):ℝ) = 2 := by norm_num
  have hu : vnorm (⟨e * zs, 0, zc⟩ : V3 ℝ) = ⟨e * zs, 0, zc⟩ := vnorm_unit _ (by unfold dot; nlinarith [zUnit])
  have hns : nShells (α := ℝ) rD.n_cap = 0 := nShells_one
  have hs := w_search he { P with exitD := ⟨e * zs, 0, zc⟩, startD := vnorm P.startD } rfl hC hb ha h3 (by linarith [show (1:ℝ) / 10 ^ 10 ≤ 1/2 by norm_num]) ⟨lit 0, lit 0, lit 0⟩
  rw [← r_search] at hs
  obtain ⟨c, E', hr, hcase⟩ := r_reflect fuel k he
    { P with exitD := ⟨e * zs, 0, zc⟩, startD := vnorm P.startD, d_travel := P.d_travel +. dist3 ⟨e * zR, 0, z0 + 1/2⟩ P.exitC, exitC := ⟨e * zR, 0, z0 + 1/2⟩ } rfl hco hg
  have hix : segIdFrom rD.prof.z (0 + 1) (z0 + 1/2) 1 = 0 := segId_zero _ _ _ 0 (by
    simp only [rD, wD, wProf, Nat.cast_zero, mul_zero]; linarith) (by intro i h1 h2; omega)
  unfold trace capilTrace
  simp only [hD, hu]
  rw [show rD.prof.nmax - 0 = 1 from rfl, hs]
  simp only [traceHit]
  have hab : (fabs (zs:ℝ) >. lit 1) = false := by
    simp only [real_fabs, gt, real_lt, real_lit, e1, decide_eq_false_iff_not, not_lt]
    rw [abs_of_pos (by norm_num [zs])]; norm_num [zs]
  rw [hab, show rD.prof.nmax = 1 from rfl, hix]
  simp only [Bool.false_eq_true, if_false, zero_add, lt_irrefl]
  have hcur : interpAt rD.prof rD.prof.ext 0 (z0 + 1/2) = 10000/999999 := by
    unfold interpAt
    rw [linAt_interp]; simp [linAt, rD, wD, wProf]
  have hge : ((e * zR) *. (e * zR) +. (0:ℝ) *. 0 >=. interpAt rD.prof rD.prof.ext 0 (z0 + 1/2)) = false := by
    rw [hcur]
    simp only [real_mul, real_add, ge, real_le, decide_eq_false_iff_not, not_le]
    rw [show e * zR * (e * zR) + 0 * 0 = e ^ 2 * zR ^ 2 by ring, he, one_mul]
    norm_num [zR]
  rw [if_neg (by rw [hge]; simp), if_neg (by rw [hns]; simp), hr]
  have hrd : reflectDir (⟨e * zs, 0, zc⟩ : V3 ℝ) ⟨e, 0, 0⟩ zs = ⟨(-e) * zs, 0, zc⟩ := by
    simp only [reflectDir, real_mul, real_sub, real_lit, e2, mul_zero, sub_zero]
    rw [vnorm_unit _ (by unfold dot; nlinarith [zUnit])]
    congr 1
    ring
  rcases hcase with ⟨rfl, hal⟩ | ⟨rfl, hal⟩
  · simp only [Out.bind_ok, afterReflect, if_true, hrd]
    exact ⟨_, _, rfl, rfl, hco, rfl, Or.inl ⟨rfl, hal, rfl⟩⟩
  · simp only [Out.bind_ok, afterReflect, if_neg (show ¬ ((0:ℤ) = 1) from by decide), if_neg (show ¬ ((0:ℤ) = -1 ∨ (0:ℤ) = -2) from by decide)]
    exact ⟨_, _, rfl, rfl, hco, rfl, Or.inr ⟨rfl, hal⟩⟩

/-- at 10 keV two thirds of the weight are lost to the roughness, at 100 keV practically everything -/
theorem r_bounce {e : ℝ} (he : e ^ 2 = 1) (E : V3 ℝ) (w : ℝ) :
    (∃ ρ, 1/10 ≤ ρ ∧ bounce rD ⟨e, 0, 0⟩ ⟨e * zs, 0, zc⟩ zs E (rCh 10 w) = rCh 10 (w * ρ)) ∧
    (0 ≤ w → w ≤ 1 → ∃ τ, 0 ≤ τ ∧ τ < 1/10^4 ∧ bounce rD ⟨e, 0, 0⟩ ⟨e * zs, 0, zc⟩ zs E (rCh 100 w) = rCh 100 τ) := by
  have key : ∀ en : ℝ, roughFactor (50:ℝ) en zs = Real.exp (-((101358/10^5 * en * zs * 50) * (101358/10^5 * en * zs * 50))) := by
    intro en
    unfold roughFactor
    simp only [real_lit, real_mul, real_exp]
    congr 1
    push_cast; ring
  constructor
  · refine ⟨roughFactor (50:ℝ) 10 zs, ?_, ?_⟩
    · rw [key]
      have hx : (101358/10^5 * 10 * zs * 50 : ℝ) * (101358/10^5 * 10 * zs * 50) ≤ 2 := by
        unfold zs; norm_num
      have h2 : Real.exp (-2) ≤ Real.exp (-((101358/10^5 * 10 * zs * 50 : ℝ) * (101358/10^5 * 10 * zs * 50))) := Real.exp_le_exp.mpr (by linarith)
      refine le_trans ?_ h2
      have := Real.exp_one_lt_d9
      rw [Real.exp_neg, show (2:ℝ) = 1 + 1 by norm_num, Real.exp_add]
      rw [le_inv_comm₀ (by norm_num) (by positivity)]
      have hp := Real.exp_pos 1
      nlinarith
    · have := z_polar e he E E
      unfold bounce frac rCh
      simp only [show rD.density = 223/100 from rfl, show rD.sig_rough = 50 from rfl, this, mul_one]
  · intro hw hw1
    refine ⟨(bounce rD ⟨e, 0, 0⟩ ⟨e * zs, 0, zc⟩ zs E (rCh 100 w)).w, ?_, ?_, rfl⟩
    all_goals
      have hg : Glass rD [rCh 100 w] := r_glass (by intro c hc; simp at hc; subst hc; simp [rCh])
      obtain ⟨a1, a2⟩ := hg.acc (n := ⟨e, 0, 0⟩) (dir := ⟨e * zs, 0, zc⟩) (E := E) (by
        unfold dot; simp only
        have : e * (e * zs) + 0 * 0 + 0 * zc = zs := by linear_combination zs * he
        rw [this]; norm_num [zs]) (rCh 100 w) (by simp)
      simp only [bounce]
      have hr : (rCh 100 w).w = w := rfl
      rw [hr, show (rCh 100 w).e = 100 from rfl, show rD.sig_rough = 50 from rfl]
      have hr0 : 0 < roughFactor (50:ℝ) 100 zs := by rw [key]; exact Real.exp_pos _
    · exact mul_nonneg (mul_nonneg hw a1) hr0.le
    · have hsmall : roughFactor (50:ℝ) 100 zs < 1/10^4 := by
        rw [key, Real.exp_neg]
        have hx : (100:ℝ) ≤ (101358/10^5 * 100 * zs * 50 : ℝ) * (101358/10^5 * 100 * zs * 50) := by
          unfold zs; norm_num
        have h1 : Real.exp 100 ≤ Real.exp ((101358/10^5 * 100 * zs * 50 : ℝ) * (101358/10^5 * 100 * zs * 50)) := Real.exp_le_exp.mpr hx
        have h2 : (10:ℝ)^4 < Real.exp 100 := by
          have h3 : (11:ℝ) ≤ Real.exp 10 := by have := Real.add_one_le_exp (10:ℝ); linarith
          rw [show (100:ℝ) = (10:ℕ) * 10 by norm_num, Real.exp_nat_mul]
          calc (10:ℝ)^4 < 11 ^ 10 := by norm_num
            _ ≤ Real.exp 10 ^ 10 := by gcongr
        rw [inv_lt_comm₀ (by positivity) (by positivity)]
        linarith
      have : w * frac rD ⟨e, 0, 0⟩ ⟨e * zs, 0, zc⟩ E (rCh 100 w) ≤ 1 := by nlinarith
      nlinarith [mul_nonneg hw a1]

theorem r_init (es : List ℝ) (hes : es ≠ []) (hb : ∀ e ∈ es, 1 ≤ e ∧ e ≤ 100) (P : Photon ℝ) (hC : P.startC = ⟨0, 0, 0⟩) (hD : P.startD = ⟨zs, 0, zc⟩) :
    (launchInit zLib rD es P).startC = ⟨0, 0, 0⟩ ∧ (launchInit zLib rD es P).exitC = ⟨0, 0, 0⟩ ∧
    (launchInit zLib rD es P).exitD = ⟨zs, 0, zc⟩ ∧ (launchInit zLib rD es P).chans = es.map (fun e => rCh e 1) ∧ (launchInit zLib rD es P).coef = true := by
  have hu : vnorm (⟨zs, 0, zc⟩ : V3 ℝ) = ⟨zs, 0, zc⟩ := vnorm_unit _ (by unfold dot; nlinarith [zUnit])
  refine ⟨hC, hC, ?_, ?_, ?_⟩
  · show vnorm (vnorm _) = _
    rw [hD, hu, hu]
  · unfold launchInit rCh
    simp only
    congr 1
    funext e
    simp [amuOf, scatfOf, rD, wD, zLib]
    norm_num
  · show (!scatfRejects rD es) = true
    have : scatfRejects rD es = false := by
      rw [scatf_accepts_iff]
      refine ⟨by norm_num [rD, wD], by simp [rD, wD], hes, hb, ?_⟩
      simp [rD, wD]
    rw [this]; rfl

theorem r_index (Q : Photon ℝ) (q1 : Q.startC = ⟨0, 0, 0⟩) : segIdFrom rD.prof.z 0 Q.startC.z (rD.prof.nmax + 1) = 0 := by
  apply segId_zero _ _ _ 1
  · rw [q1]; simp [rD, wD, wProf]
  · intro i h1 h2
    have : i = 1 := by omega
    subst this; rw [q1]; simp [rD, wD, wProf]

/-- with 10 and 100 keV the photon is transmitted -/
theorem r_both (fuel k : Nat) (P : Photon ℝ) (hC : P.startC = ⟨0, 0, 0⟩) (hD : P.startD = ⟨zs, 0, zc⟩) :
    ∃ w1 w2 P', launch zLib (some rD) false fuel (k + 1) (some P) (some [10, 100]) true = .ok (1, .filled [w1, w2], some P') := by
  have hb : ∀ e ∈ [(10:ℝ), 100], 1 ≤ e ∧ e ≤ 100 := by intro e he; simp at he; rcases he with rfl | rfl <;> norm_num
  obtain ⟨D', P'', es', e1, e2, e3, -, -, -, h'⟩ := launch_valid zLib (some rD) false fuel (k + 1) (some P) (some [(10:ℝ), 100]) true (not_argsBad (by simp) hb)
  injection e1 with e1; injection e2 with e2; injection e3 with e3; subst e1 e2 e3
  rw [h']
  obtain ⟨q1, q3, q4, c1, c2⟩ := r_init [10, 100] (by simp) hb P hC hD
  generalize hI : launchInit zLib rD [10, 100] P = Q at q1 q3 q4 c1 c2
  simp only [List.map_cons, List.map_nil] at c1
  unfold launchBody
  simp only [hI, q1, show launchCap rD ⟨0, 0, 0⟩ = some (0, 0) from w_cap (le_refl (0:ℝ)) (by norm_num), show startsInWall rD (0, 0) ⟨0, 0, 0⟩ = false from w_open (le_refl (0:ℝ)) (by norm_num), Bool.false_eq_true, if_false]
  unfold launchInside
  rw [r_index Q q1, show rD.prof.nmax + 1 = 2 from rfl]
  have hg : ∀ w1 w2, Glass rD [rCh 10 w1, rCh 100 w2] := fun w1 w2 => r_glass (by
    intro c hc; simp at hc; rcases hc with rfl | rfl <;> simp [rCh] <;> norm_num)
  obtain ⟨x1, Q1, t1, d1, d2, d3, d4⟩ := r_trace (e := 1) (z0 := 0) (by norm_num) fuel k Q (by rw [q4, one_mul]) (by rw [q3]; simp) (by rw [q3]; norm_num)
    (by rw [q3]; norm_num) (by norm_num) (by norm_num) c2 (by rw [c1]; exact hg _ _)
  obtain ⟨⟨ρ1, r1, r2⟩, s⟩ := r_bounce (e := 1) (by norm_num) Q.exitE 1
  obtain ⟨τ1, s1, s2, s3⟩ := s (by norm_num) (le_refl _)
  rw [c1, List.map_cons, List.map_cons, List.map_nil, r2, s3] at d1
  rcases d4 with ⟨rfl, -, d5⟩ | ⟨-, d5⟩
  · obtain ⟨x2, Q2, t2, f1, f2, f3, f4⟩ := r_trace (e := -1) (z0 := 1) (by norm_num) fuel k Q1 d5
      (by rw [d3]; simp only [V3.mk.injEq, and_true]; ring) (by rw [d3]; norm_num) (by rw [d3]; norm_num) (by norm_num) (by norm_num) d2
      (by rw [d1]; exact hg _ _)
    obtain ⟨⟨ρ2, r3, r4⟩, -⟩ := r_bounce (e := -1) (by norm_num) Q1.exitE (1 * ρ1)
    rw [d1, List.map_cons, List.map_cons, List.map_nil, r4] at f1
    rcases f4 with ⟨rfl, -, -⟩ | ⟨-, f5⟩
    · simp only [traceLoop, t1, t2, Out.bind_ok]
      rw [if_neg (by decide), if_neg (by decide)]
      simp only [Out.bind_ok]
      rw [if_neg (by decide), if_neg (by decide)]
      rw [f1]
      exact ⟨_, _, _, rfl⟩
    · exfalso
      apply f5
      rw [f1]
      refine ⟨_, List.mem_cons_self, ?_⟩
      show (1:ℝ) / 10 ^ 4 ≤ 1 * ρ1 * ρ2
      have : (1/10) * (1/10) ≤ ρ1 * ρ2 := mul_le_mul r1 r3 (by norm_num) (by linarith)
      rw [one_mul]
      refine le_trans ?_ this
      norm_num
  · exfalso
    apply d5
    rw [d1]
    refine ⟨_, List.mem_cons_self, ?_⟩
    show (1:ℝ) / 10 ^ 4 ≤ 1 * ρ1
    rw [one_mul]
    refine le_trans ?_ r1
    norm_num

/-- with 100 keV only it is absorbed -/
theorem r_high (fuel k : Nat) (P : Photon ℝ) (hC : P.startC = ⟨0, 0, 0⟩) (hD : P.startD = ⟨zs, 0, zc⟩) :
    ∃ w P', launch zLib (some rD) false fuel (k + 1) (some P) (some [100]) true = .ok (0, .filled [w], some P') := by
  have hb : ∀ e ∈ [(100:ℝ)], 1 ≤ e ∧ e ≤ 100 := by intro e he; simp at he; subst he; norm_num
  obtain ⟨D', P'', es', e1, e2, e3, -, -, -, h'⟩ := launch_valid zLib (some rD) false fuel (k + 1) (some P) (some [(100:ℝ)]) true (not_argsBad (by simp) hb)
  injection e1 with e1; injection e2 with e2; injection e3 with e3; subst e1 e2 e3
  rw [h']
  obtain ⟨q1, q3, q4, c1, c2⟩ := r_init [100] (by simp) hb P hC hD
  generalize hI : launchInit zLib rD [100] P = Q at q1 q3 q4 c1 c2
  simp only [List.map_cons, List.map_nil] at c1
  unfold launchBody
  simp only [hI, q1, show launchCap rD ⟨0, 0, 0⟩ = some (0, 0) from w_cap (le_refl (0:ℝ)) (by norm_num), show startsInWall rD (0, 0) ⟨0, 0, 0⟩ = false from w_open (le_refl (0:ℝ)) (by norm_num), Bool.false_eq_true, if_false]
  unfold launchInside
  rw [r_index Q q1, show rD.prof.nmax + 1 = 2 from rfl]
  obtain ⟨x1, Q1, t1, d1, d2, d3, d4⟩ := r_trace (e := 1) (z0 := 0) (by norm_num) fuel k Q (by rw [q4, one_mul]) (by rw [q3]; simp) (by rw [q3]; norm_num)
    (by rw [q3]; norm_num) (by norm_num) (by norm_num) c2 (by
      rw [c1]; exact r_glass (by intro c hc; simp at hc; subst hc; simp [rCh]))
  obtain ⟨-, s⟩ := r_bounce (e := 1) (by norm_num) Q.exitE 1
  obtain ⟨τ1, s1, s2, s3⟩ := s (by norm_num) (le_refl _)
  rw [c1, List.map_cons, List.map_nil, s3] at d1
  rcases d4 with ⟨-, d5, -⟩ | ⟨rfl, -⟩
  · exfalso
    rw [d1] at d5
    obtain ⟨c, hc, hw⟩ := d5
    simp only [List.mem_singleton] at hc
    subst hc
    have : (rCh 100 τ1).w = τ1 := rfl
    rw [this] at hw
    linarith
  · simp only [traceLoop, t1, Out.bind_ok]
    rw [if_pos (by decide)]
    simp only [Out.bind_ok]
    rw [if_neg (by decide), d1]
    exact ⟨_, _, rfl⟩

/-- **C86**: both cases of the theorem occur.  The photon with 10 and 100 keV is transmitted; with 100 keV alone it is absorbed. -/
theorem absorbed_alone : ∃ P w1 w2 w P1 P2, launch zLib (some rD) false 0 1 (some P) (some [10, 100]) true = .ok (1, .filled [w1, w2], some P1) ∧
    launch zLib (some rD) false 0 1 (some P) (some [100]) true = .ok (0, .filled [w], some P2) := by
  obtain ⟨w1, w2, P1, h1⟩ := r_both 0 0 (exP ⟨0, 0, 0⟩ ⟨zs, 0, zc⟩ 0) rfl rfl
  obtain ⟨w, P2, h2⟩ := r_high 0 0 (exP ⟨0, 0, 0⟩ ⟨zs, 0, zc⟩ 0) rfl rfl
  exact ⟨_, w1, w2, w, P1, P2, h1, h2⟩

/-- the hypotheses of `launch_energies_independent` are met by this photon, which reflects twice -/
example : ∃ (P : Photon ℝ) (w1 w2 : ℝ) (P1 : Photon ℝ) (f : ℝ → ℝ), launch zLib (some rD) false 0 1 (some P) (some [10, 100]) true = .ok (1, .filled [w1, w2], some P1) ∧
    [w1, w2] = [f 10, f (100:ℝ)] ∧ launch zLib (some rD) false 0 1 (some P) (some [100, 10, 100]) true = .ok (1, .filled [f 100, f 10, f 100], some P1) := by
  obtain ⟨w1, w2, P1, h1⟩ := r_both 0 0 (exP ⟨0, 0, 0⟩ ⟨zs, 0, zc⟩ 0) rfl rfl
  obtain ⟨f, a, b⟩ := launch_energies_order zLib rD 0 1 0 0 _ [10, 100] [100, 10, 100] (by simp) (by intro e; simp; tauto)
    (by intro e he; simp at he; rcases he with rfl | rfl <;> norm_num) _ _ _ h1 (Or.inl (by decide))
  exact ⟨_, w1, w2, P1, f, h1, a, b⟩

/-- and the condition on the glass, which replaces the one on the return value, by glass at these energies -/
example : Refracts zLib rD [10, 100] := by
  have h : ∀ e, scatfOf zLib rD e = 1/2 ∧ amuOf zLib rD e = 0 := by
    intro e
    simp [amuOf, scatfOf, rD, wD, zLib]
    norm_num
  have g := r_glass (cs := [rCh 10 1, rCh 100 1]) (by intro c hc; simp at hc; rcases hc with rfl | rfl <;> simp [rCh] <;> norm_num)
  refine ⟨g.density, fun e _ => by rw [(h e).1]; norm_num, fun e _ => by rw [(h e).2], ?_⟩
  intro e he
  rw [(h e).1]
  simp at he
  rcases he with rfl | rfl
  · exact (g.chan (rCh 10 1) (by simp)).2.2.2.2
  · exact (g.chan (rCh 100 1) (by simp)).2.2.2.2

end RoughTube
end Polycap
