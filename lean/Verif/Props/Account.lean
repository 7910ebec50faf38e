import Verif.Props.LeakRecords
import Verif.Props.LeakPlaces
import Verif.Props.ClearPath
import Verif.Props.LeakOff

/-!
# C89: no light is forgotten

At every reflection the light of a photon divides: a part is reflected, the rest enters the glass and arrives, attenuated, where it leaves
the glass.  With leak calculation a launch keeps the books: everything that arrives there is recorded as a leak event or followed in
the bore it enters – in the same way, to any depth – unless it has become fainter than 1e-4 at every energy.  Over the reals.
-/
namespace Polycap.Acc
open CNum

/-! ## Specification -/

/-- the part of the light `w` (one number per energy) that is reflected, with reflectivities `R` -/
noncomputable def reflected (R w : List ℝ) : List ℝ := List.zipWith (· * ·) R w

/-- the part that enters the glass and arrives at the end of a way `t` through it; `amu`: absorption coefficients -/
noncomputable def arriving (amu R : List ℝ) (t : ℝ) (w : List ℝ) : List ℝ :=
  List.zipWith (fun m x => x * Real.exp (-(t * m))) amu (List.zipWith (fun r x => (1 - r) * x) R w)

/-- fainter than 1e-4 at every energy -/
def Faint (w : List ℝ) : Prop := ∀ x ∈ w, x < 1 / 10 ^ 4

/-- `R` are reflectivities, one per energy, `t` is a distance -/
structure Split (R : List ℝ) (t : ℝ) (w : List ℝ) : Prop where
  len : R.length = w.length
  prob : ∀ r ∈ R, 0 ≤ r ∧ r ≤ 1
  way : 0 ≤ t

/-- `Course amu n N w v s`: light `w` has been reflected `n` times – together with the light that was followed in other bores, `N`
times – `v` is left of it, and `s` are the weights of all leak events recorded on the way. -/
inductive Course (amu : List ℝ) : ℕ → ℕ → List ℝ → List ℝ → Multiset (List ℝ) → Prop
  | start (w) : Course amu 0 0 w w 0
  /-- a reflection at which too little light arrives behind the glass -/
  | faint {n N w v s} (R t) (h : Course amu n N w v s) (split : Split R t v) (f : Faint (arriving amu R t v)) :
      Course amu (n + 1) (N + 1) w (reflected R v) s
  /-- a reflection at which the light that arrives behind the glass has left the optic, and is recorded -/
  | recorded {n N w v s} (R t) (h : Course amu n N w v s) (split : Split R t v) (f : ¬ Faint (arriving amu R t v)) :
      Course amu (n + 1) (N + 1) w (reflected R v) (s + {arriving amu R t v})
  /-- a reflection at which the light that arrives behind the glass is in another bore; it is followed there until it has come
  out of the bore, and recorded -/
  | followed {n N w v s} (R t) (h : Course amu n N w v s) (split : Split R t v) (f : ¬ Faint (arriving amu R t v))
      {m M u s'} (h' : Course amu m M (arriving amu R t v) u s') : Course amu (n + 1) (N + 1 + M) w (reflected R v) (s + (s' + {u}))
  /-- … until so many reflections have made it faint -/
  | absorbed {n N w v s} (R t) (h : Course amu n N w v s) (split : Split R t v) (f : ¬ Faint (arriving amu R t v))
      {m M u s'} (h' : Course amu m M (arriving amu R t v) u s') (hm : 1 ≤ m) (hu : Faint u) :
      Course amu (n + 1) (N + 1 + M) w (reflected R v) (s + s')

theorem Course.trans {amu : List ℝ} {n N : ℕ} {w v u : List ℝ} {s s' : Multiset (List ℝ)} {m M : ℕ} (h : Course amu n N w v s)
    (g : Course amu m M v u s') : Course amu (n + m) (N + M) w u (s + s') := by
  induction g generalizing n N w s with
  | start => simpa using h
  | faint R t _ sp f ih => exact .faint R t (ih h) sp f
  | recorded R t _ sp f ih => rw [← add_assoc s]; exact .recorded R t (ih h) sp f
  | followed R t _ sp f h' ih => rw [← add_assoc s, ← add_assoc N, ← add_assoc N]; exact .followed R t (ih h) sp f h'
  | absorbed R t _ sp f h' hm hu ih => rw [← add_assoc s, ← add_assoc N, ← add_assoc N]; exact .absorbed R t (ih h) sp f h' hm hu

/-! ### What that means for the light of one energy -/

theorem getD_zip {f : ℝ → ℝ → ℝ} (hf : ∀ x, f x 0 = 0) : ∀ (a b : List ℝ) (j : ℕ), a.length = b.length →
    (List.zipWith f a b).getD j 0 = f (a.getD j 0) (b.getD j 0)
  | [], [], j, _ => by simp [hf]
  | x :: a, y :: b, 0, _ => by simp
  | x :: a, y :: b, j + 1, h => by simpa using getD_zip hf a b j (by simpa using h)

/-- total weight of energy `j` in a collection of leak events -/
noncomputable def sumAt (j : ℕ) (s : Multiset (List ℝ)) : ℝ := (s.map fun l => l.getD j 0).sum

theorem sumAt_add (j : ℕ) (s t : Multiset (List ℝ)) : sumAt j (s + t) = sumAt j s + sumAt j t := by simp [sumAt]
theorem sumAt_one (j : ℕ) (l : List ℝ) : sumAt j {l} = l.getD j 0 := by simp [sumAt]
theorem sumAt_zero (j : ℕ) : sumAt j 0 = 0 := by simp [sumAt]

theorem arriving_length {amu R : List ℝ} {t : ℝ} {w : List ℝ} (ha : amu.length = w.length) (hR : R.length = w.length) :
    (arriving amu R t w).length = w.length := by simp [arriving, ha, hR]

theorem reflected_length {R w : List ℝ} (hR : R.length = w.length) : (reflected R w).length = w.length := by simp [reflected, hR]

theorem arriving_getD {amu R : List ℝ} {t : ℝ} {w : List ℝ} (ha : amu.length = w.length) (hR : R.length = w.length) (j : ℕ) :
    (arriving amu R t w).getD j 0 = (1 - R.getD j 0) * w.getD j 0 * Real.exp (-(t * amu.getD j 0)) := by
  unfold arriving
  rw [getD_zip (by simp) _ _ _ (by simp [ha, hR]), getD_zip (by simp) _ _ _ hR]

theorem reflected_getD {R w : List ℝ} (hR : R.length = w.length) (j : ℕ) : (reflected R w).getD j 0 = R.getD j 0 * w.getD j 0 :=
  getD_zip (by simp) _ _ _ hR

theorem prob_getD {R : List ℝ} (h : ∀ r ∈ R, 0 ≤ r ∧ r ≤ 1) (j : ℕ) : 0 ≤ R.getD j 0 ∧ R.getD j 0 ≤ 1 := by
  rw [List.getD_eq_getElem?_getD]
  cases hx : R[j]? with
  | none => simp
  | some y => exact h y (List.mem_of_getElem? hx)

theorem faint_getD {w : List ℝ} (h : Faint w) (j : ℕ) : w.getD j 0 < 1 / 10 ^ 4 := by
  rw [List.getD_eq_getElem?_getD]
  cases hx : w[j]? with
  | none => simp
  | some y => exact h y (List.mem_of_getElem? hx)

/-- **Light balance.**  Nothing is created; and in transparent glass (absorption coefficient 0 at energy `j`) what is left and what has been
recorded is the light there was, but for less than 1e-4 per reflection. -/
theorem Course.balance {amu : List ℝ} {n N : ℕ} {w v : List ℝ} {s : Multiset (List ℝ)} (h : Course amu n N w v s) (j : ℕ)
    (hl : amu.length = w.length) (hw : 0 ≤ w.getD j 0) (hm : 0 ≤ amu.getD j 0) :
    v.length = w.length ∧ 0 ≤ v.getD j 0 ∧ 0 ≤ sumAt j s ∧ v.getD j 0 + sumAt j s ≤ w.getD j 0 ∧
    (amu.getD j 0 = 0 → w.getD j 0 - N * (1 / 10 ^ 4) ≤ v.getD j 0 + sumAt j s) := by
  have bounce : ∀ {R t v}, Split R t v → amu.length = v.length → 0 ≤ v.getD j 0 →
      0 ≤ (reflected R v).getD j 0 ∧ 0 ≤ (arriving amu R t v).getD j 0 ∧
      (reflected R v).getD j 0 + (arriving amu R t v).getD j 0 ≤ v.getD j 0 ∧
      (amu.getD j 0 = 0 → (reflected R v).getD j 0 + (arriving amu R t v).getD j 0 = v.getD j 0) := by
    intro R t v sp ha hv
    obtain ⟨p0, p1⟩ := prob_getD sp.prob j
    rw [reflected_getD sp.len, arriving_getD ha sp.len]
    have h3 : 0 ≤ (1 - R.getD j 0) * v.getD j 0 := mul_nonneg (by linarith) hv
    have h4 : Real.exp (-(t * amu.getD j 0)) ≤ 1 := by
      rw [Real.exp_le_one_iff]; have := mul_nonneg sp.way hm; linarith
    have h5 := (Real.exp_pos (-(t * amu.getD j 0))).le
    refine ⟨mul_nonneg p0 hv, mul_nonneg h3 h5, by nlinarith, fun h0 => ?_⟩
    rw [h0]; simp; ring
  induction h with
  | start => exact ⟨rfl, hw, by simp [sumAt], by simp [sumAt], by simp [sumAt]⟩
  | @faint n N w v s R t _ sp f ih =>
    obtain ⟨i0, i1, i2, i3, i4⟩ := ih hl hw
    obtain ⟨b1, b2, b3, b4⟩ := bounce sp (by omega) i1
    refine ⟨by rw [reflected_length sp.len, i0], b1, i2, by linarith, fun h0 => ?_⟩
    have := i4 h0; have := b4 h0; have := faint_getD f j
    push_cast
    linarith
  | @recorded n N w v s R t _ sp f ih =>
    obtain ⟨i0, i1, i2, i3, i4⟩ := ih hl hw
    obtain ⟨b1, b2, b3, b4⟩ := bounce sp (by omega) i1
    rw [sumAt_add, sumAt_one]
    refine ⟨by rw [reflected_length sp.len, i0], b1, by linarith, by linarith, fun h0 => ?_⟩
    have := i4 h0; have := b4 h0
    push_cast
    linarith
  | @followed n N w v s R t _ sp f m M u s' _ ih ih' =>
    obtain ⟨i0, i1, i2, i3, i4⟩ := ih hl hw
    obtain ⟨b1, b2, b3, b4⟩ := bounce sp (by omega) i1
    obtain ⟨j0, j1, j2, j3, j4⟩ := ih' (by rw [arriving_length (by omega) sp.len]; omega) b2
    rw [sumAt_add, sumAt_add, sumAt_one]
    refine ⟨by rw [reflected_length sp.len, i0], b1, by linarith, by linarith, fun h0 => ?_⟩
    have := i4 h0; have := b4 h0; have := j4 h0
    push_cast
    linarith
  | @absorbed n N w v s R t _ sp f m M u s' _ _ hu ih ih' =>
    obtain ⟨i0, i1, i2, i3, i4⟩ := ih hl hw
    obtain ⟨b1, b2, b3, b4⟩ := bounce sp (by omega) i1
    obtain ⟨j0, j1, j2, j3, j4⟩ := ih' (by rw [arriving_length (by omega) sp.len]; omega) b2
    rw [sumAt_add]
    refine ⟨by rw [reflected_length sp.len, i0], b1, by linarith, by linarith, fun h0 => ?_⟩
    have := i4 h0; have := b4 h0; have := j4 h0; have := faint_getD hu j
    push_cast
    linarith


/-! ## The code keeps these books -/

/-- the weights of a photon, one per energy -/
def wts (P : Photon ℝ) : List ℝ := P.chans.map (·.w)
/-- its absorption coefficients -/
def amus (P : Photon ℝ) : List ℝ := P.chans.map (·.amu)
/-- the weights of all leak events recorded for it -/
def events (P : Photon ℝ) : Multiset (List ℝ) := ↑((P.ext ++ P.int).map (·.weight))

theorem events_eq (P : Photon ℝ) : events P = ↑(P.ext.map (·.weight)) + ↑(P.int.map (·.weight)) := by simp [events]

/-- From `P` to `P'` the light has taken a course of `n` reflections. -/
structure Booked (P P' : Photon ℝ) (n : ℕ) : Prop where
  amus : amus P' = amus P
  course : ∃ N s, Course (Acc.amus P) n N (wts P) (wts P') s ∧ events P' = events P + s

theorem Booked.refl {P P' : Photon ℝ} (hc : P'.chans = P.chans) (he : P'.ext = P.ext) (hi : P'.int = P.int) : Booked P P' 0 := by
  refine ⟨by rw [Acc.amus, hc]; rfl, 0, 0, ?_, by simp [events, he, hi]⟩
  rw [wts, wts, hc]; exact .start _

theorem Booked.trans {P Q R : Photon ℝ} {n m : ℕ} (h : Booked P Q n) (g : Booked Q R m) : Booked P R (n + m) := by
  obtain ⟨N, s, h1, h2⟩ := h.course
  obtain ⟨M, t, g1, g2⟩ := g.course
  rw [h.amus] at g1
  exact ⟨g.amus.trans h.amus, N + M, s + t, h1.trans g1, by rw [g2, h2, add_assoc]⟩

/-- same books, other path data -/
theorem Booked.congr {P P' Q Q' : Photon ℝ} {n : ℕ} (h : Booked P P' n) (a : Q.chans = P.chans) (b : Q.ext = P.ext) (c : Q.int = P.int)
    (a' : Q'.chans = P'.chans) (b' : Q'.ext = P'.ext) (c' : Q'.int = P'.int) : Booked Q Q' n := by
  have := ((Booked.refl a.symm b.symm c.symm).trans h).trans (Booked.refl a' b' c')
  simpa using this

/-- The energy loop of a reflection divides the light. -/
theorem energies_split (D : Descr ℝ) (norm dir : V3 ℝ) (alfa d : ℝ) (hd : 0 ≤ d) : ∀ (cs : List (Chan ℝ)) (E ev : V3 ℝ),
    (reflEnergies D norm dir alfa true d cs E ev).ok = true →
    ∃ R, Split R d (cs.map (·.w)) ∧
      (reflEnergies D norm dir alfa true d cs E ev).chans.map (·.w) = reflected R (cs.map (·.w)) ∧
      (reflEnergies D norm dir alfa true d cs E ev).chans.map (·.amu) = cs.map (·.amu) ∧
      (reflEnergies D norm dir alfa true d cs E ev).wl = arriving (cs.map (·.amu)) R d (cs.map (·.w)) ∧
      ((reflEnergies D norm dir alfa true d cs E ev).leakFlag = false → Faint (reflEnergies D norm dir alfa true d cs E ev).wl) ∧
      ((reflEnergies D norm dir alfa true d cs E ev).weightFlag = false →
        Faint ((reflEnergies D norm dir alfa true d cs E ev).chans.map (·.w))) := by
  have e0 : ((0:ℚ):ℝ) = 0 := by norm_num
  have e1 : ((1:ℚ):ℝ) = 1 := by norm_num
  have em : ((-1:ℚ):ℝ) = -1 := by norm_num
  intro cs
  induction cs with
  | nil =>
    intro E ev _
    exact ⟨[], ⟨rfl, by simp, hd⟩, rfl, rfl, rfl, fun _ => by simp [Faint, reflEnergies], fun _ => by simp [Faint, reflEnergies]⟩
  | cons c cs ih =>
    intro E ev h
    unfold reflEnergies at h ⊢
    simp only at h ⊢
    by_cases hr : ((reflPolar c.e D.density c.scatf c.amu norm dir E ev).1 <. (lit 0 : ℝ) ||
      (reflPolar c.e D.density c.scatf c.amu norm dir E ev).1 >. (lit 1 : ℝ)) = true
    · rw [if_pos hr] at h; simp at h
    rw [if_neg hr] at h ⊢
    obtain ⟨R, i1, i2, i3, i4, i5, i6⟩ := ih _ _ h
    simp only [gt, real_lt, real_lit, e0, e1, Bool.or_eq_true, decide_eq_true_eq, not_or, not_lt] at hr
    generalize reflPolar c.e D.density c.scatf c.amu norm dir E ev = x at *
    generalize reflEnergies D norm dir alfa true d cs x.2.2 x.2.1 = r at *
    have hrr := roughFactor_bounds D.sig_rough c.e alfa
    generalize roughFactor D.sig_rough c.e alfa = rr at *
    have el : leakWeight x.1 rr c.w d c.amu = (1 - x.1 * rr) * c.w * Real.exp (-(d * c.amu)) := by
      simp only [leakWeight, real_mul, real_sub, real_exp, real_lit, e1, em]
      congr 2; ring
    refine ⟨x.1 * rr :: R, ⟨by simp [i1.len], ?_, hd⟩, ?_, ?_, ?_, ?_, ?_⟩
    · intro y hy
      rcases List.mem_cons.mp hy with rfl | hy
      · exact ⟨mul_nonneg hr.1 hrr.1, mul_le_one₀ hr.2 hrr.1 hrr.2⟩
      · exact i1.prob y hy
    · simp only [List.map_cons, i2, reflected, List.zipWith_cons_cons, real_mul]
      congr 1; ring
    · simp only [List.map_cons, i3]
    · simp only [i4, el, arriving, List.map_cons, List.zipWith_cons_cons]
    · intro hf y hy
      simp only [Bool.true_and, Bool.or_eq_false_iff] at hf
      rcases List.mem_cons.mp hy with rfl | hy
      · have := hf.1
        simpa [ge] using this
      · exact i5 hf.2 y hy
    · intro hf y hy
      simp only [Bool.or_eq_false_iff] at hf
      rcases List.mem_cons.mp hy with rfl | hy
      · have := hf.1
        simpa [ge] using this
      · exact i6 hf.2 y hy

/-- Light that leaves the glass in a bore does so before the exit plane. -/
def NoneBeyond (D : Descr ℝ) : Prop := ∀ fuel c d w, dot d d = 1 → traceWall D fuel c d = .ok w → w.code = 1 →
  (along c d w.d).z < D.prof.z D.prof.nmax

/-- the tracing keeps the books: 1: reflected once more, -2: no further wall, 0: reflected once more and faint -/
def TraceBooked (tr : Nat → Photon ℝ → Out (Int × Nat × Photon ℝ)) : Prop :=
  ∀ ix P c ix' P', tr ix P = .ok (c, ix', P') →
    (c = 1 → Booked P P' 1 ∧ P'.i_refl = P.i_refl + 1) ∧ (c = -2 → Booked P P' 0 ∧ P'.i_refl = P.i_refl) ∧
    (c = 0 → Booked P P' 1 ∧ P'.i_refl = P.i_refl ∧ Faint (wts P')) ∧ (c = 1 ∨ c = -2 ∨ c = 0 ∨ c = -1 ∨ c = -3)

theorem loop_booked {tr : Nat → Photon ℝ → Out (Int × Nat × Photon ℝ)} (htr : TraceBooked tr) :
    ∀ (k : Nat) (iesc : Int) (ix : Nat) (P : Photon ℝ) (x), traceLoop tr (k + 1) iesc ix P = .ok x →
      (x.1 = 1 ∨ x.1 = -2 → ∃ n : ℕ, Booked P x.2.2 n ∧ x.2.2.i_refl = P.i_refl + n) ∧
      (x.1 = 0 → ∃ n : ℕ, 1 ≤ n ∧ Booked P x.2.2 n ∧ x.2.2.i_refl + 1 = P.i_refl + n ∧ Faint (wts x.2.2)) ∧
      (x.1 = 1 ∨ x.1 = -2 ∨ x.1 = 0 ∨ x.1 = -1 ∨ x.1 = -3) := by
  intro k
  induction k with
  | zero =>
    intro iesc ix P x hx
    rw [traceLoop, Out.bind_eq_ok] at hx
    obtain ⟨⟨c, i, Q⟩, hy, hx⟩ := hx
    obtain ⟨t1, t2, t3, t4⟩ := htr _ _ _ _ _ hy
    have hx : x = (c, i, Q) := by
      simp only [traceLoop] at hx
      split at hx <;> (injection hx with hx; exact hx.symm)
    subst hx
    refine ⟨?_, fun h => ⟨1, le_rfl, (t3 h).1, ?_, (t3 h).2.2⟩, t4⟩
    · rintro (h | h)
      · exact ⟨1, (t1 h).1, by exact_mod_cast (t1 h).2⟩
      · exact ⟨0, (t2 h).1, by simpa using (t2 h).2⟩
    · have := (t3 h).2.1; push_cast; omega
  | succ k ih =>
    intro iesc ix P x hx
    rw [traceLoop, Out.bind_eq_ok] at hx
    obtain ⟨⟨c, i, Q⟩, hy, hx⟩ := hx
    obtain ⟨t1, t2, t3, t4⟩ := htr _ _ _ _ _ hy
    split at hx
    · rename_i hc
      injection hx with hx
      subst hx
      refine ⟨?_, fun h => ⟨1, le_rfl, (t3 h).1, ?_, (t3 h).2.2⟩, t4⟩
      · rintro (h | h)
        · exact ⟨1, (t1 h).1, by exact_mod_cast (t1 h).2⟩
        · exact ⟨0, (t2 h).1, by simpa using (t2 h).2⟩
      · have := (t3 h).2.1; push_cast; omega
    · rename_i hc
      have hc : c = 1 := by simpa using hc
      obtain ⟨b1, b2⟩ := t1 hc
      obtain ⟨j1, j2, j3⟩ := ih _ _ _ _ hx
      refine ⟨fun h => ?_, fun h => ?_, j3⟩
      · obtain ⟨n, g1, g2⟩ := j1 h
        exact ⟨1 + n, b1.trans g1, by push_cast; simp only at g2; omega⟩
      · obtain ⟨n, g0, g1, g2, g3⟩ := j2 h
        exact ⟨1 + n, by omega, b1.trans g1, by push_cast; simp only at g2; omega, g3⟩


/-- what becomes of light `u` that arrived behind the glass -/
inductive Fate (amu : List ℝ) : ℕ → List ℝ → Multiset (List ℝ) → Prop
  | recorded (u) : Fate amu 0 u {u}
  | followed {m M u v s} (h : Course amu m M u v s) : Fate amu M u (s + {v})
  | absorbed {m M u v s} (h : Course amu m M u v s) (hm : 1 ≤ m) (hv : Faint v) : Fate amu M u s

theorem Course.bounce {amu : List ℝ} {n N : ℕ} {w v : List ℝ} {s : Multiset (List ℝ)} (h : Course amu n N w v s) {R : List ℝ} {t : ℝ}
    (sp : Split R t v) (f : ¬ Faint (arriving amu R t v)) {M : ℕ} {s' : Multiset (List ℝ)} (g : Fate amu M (arriving amu R t v) s') :
    Course amu (n + 1) (N + 1 + M) w (reflected R v) (s + s') := by
  generalize hu : arriving amu R t v = u at g
  cases g with
  | recorded => rw [← hu]; exact .recorded R t h sp f
  | followed h' => subst hu; exact .followed R t h sp f h'
  | absorbed h' hm hv => subst hu; exact .absorbed R t h sp f h' hm hv

theorem zip_amu (cs : List (Chan ℝ)) (wl : List ℝ) (h : wl.length = cs.length) :
    (List.zipWith (fun c w => { c with w := w }) cs wl).map (·.amu) = cs.map (·.amu) := by
  induction cs generalizing wl with
  | nil => simp
  | cons c cs ih => cases wl with
    | nil => simp at h
    | cons w wl => simp [ih wl (by simpa using h)]

theorem recordTemp_events {D : Descr ℝ} (hext : 0 < D.prof.ext D.prof.nmax) (P T : Photon ℝ) {iesc : Int} (h : iesc = 1 ∨ iesc = -2) :
    events (recordTemp D P T iesc) = events P + {wts T} := by
  have hb : ∀ x y, withinPcBoundary (D.prof.ext D.prof.nmax) x y = 0 ∨ withinPcBoundary (D.prof.ext D.prof.nmax) x y = 1 := by
    intro x y
    obtain ⟨-, b1, b2⟩ := boundary_spec (D.prof.ext D.prof.nmax) x y
    by_cases hi : InHex (D.prof.ext D.prof.nmax) x y
    · exact Or.inr (b1 hext hi)
    · exact Or.inl (b2 hext hi)
  unfold recordTemp
  rw [if_pos h]
  simp only
  rcases hb (toExit D.prof T.exitC T.exitD).x (toExit D.prof T.exitC T.exitD).y with hb | hb
  · simp only [hb, if_true, events_eq, List.map_append, List.map_cons, List.map_nil]
    simp only [← Multiset.coe_add, Multiset.coe_singleton, wts]
    abel
  · simp only [hb, if_true, show ¬ ((1:Int) = 0) by decide, if_false, events_eq, List.map_append, List.map_cons, List.map_nil]
    simp only [← Multiset.coe_add, Multiset.coe_singleton, wts]
    abel

theorem leak_booked {D : Descr ℝ} (hext : 0 < D.prof.ext D.prof.nmax) {tr : Int → Int → Nat → Photon ℝ → Out (Int × Nat × Photon ℝ)}
    (htr : ∀ q r, TraceBooked (tr q r)) {P : Photon ℝ} {w : Wall ℝ} (hcode : w.code = 1 ∨ w.code = 2 ∨ w.code = 3)
    (hbey : w.code = 1 → (along P.exitC P.exitD w.d).z < D.prof.z D.prof.nmax) {wl : List ℝ} (hlen : wl.length = P.chans.length)
    {iesc c : Int} {P' : Photon ℝ} (h : reflectLeak D tr P w wl iesc = .ok (c, P')) (hc : c ≠ -2) :
    ∃ M s, Fate (amus P) M wl s ∧ events P' = events P + s := by
  unfold reflectLeak at h
  simp only at h
  split at h
  · injection h with h; injection h with h1 h2; subst h2
    refine ⟨0, {wl}, .recorded _, ?_⟩
    simp only [events_eq, List.map_append, List.map_cons, List.map_nil, ← Multiset.coe_add, Multiset.coe_singleton]
    abel
  split at h
  · injection h with h; injection h with h1 h2; subst h2
    refine ⟨0, {wl}, .recorded _, ?_⟩
    simp only [events_eq, List.map_append, List.map_cons, List.map_nil, ← Multiset.coe_add, Multiset.coe_singleton]
    abel
  rename_i n3 n2
  split at h
  · split at h
    · simp at h
    rename_i T hT
    have hTe : T.ext = [] ∧ T.int = [] := by
      unfold photonNew at hT
      split at hT
      · simp at hT
      split at hT
      · simp at hT
      · injection hT with hT; subst hT; exact ⟨rfl, rfl⟩
    rw [Out.bind_eq_ok] at h
    obtain ⟨x, hx, h⟩ := h
    obtain ⟨l1, l2, l3⟩ := loop_booked (htr w.q w.r) _ _ _ _ _ hx
    split at h
    · injection h with h; injection h with h1 h2; exact absurd h1.symm hc
    rename_i hne
    injection h with h; injection h with h1 h2
    have hw : wts (tempPhoton P T w.d wl) = wl := (map_zipWith_w P.chans wl hlen).1
    have ha : amus (tempPhoton P T w.d wl) = amus P := zip_amu P.chans wl hlen
    have he : events (tempPhoton P T w.d wl) = 0 := by simp [events, tempPhoton, hTe.1, hTe.2]
    have hE : events { P with ext := P.ext ++ x.2.2.ext, int := P.int ++ x.2.2.int } = events P + events x.2.2 := by
      simp only [events_eq, List.map_append, ← Multiset.coe_add]
      abel
    rcases l3 with l3 | l3 | l3 | l3 | l3
    · obtain ⟨n, b, -⟩ := l1 (Or.inl l3)
      obtain ⟨N, s, g1, g2⟩ := b.course
      rw [ha, hw] at g1
      rw [he, zero_add] at g2
      refine ⟨N, s + {wts x.2.2}, .followed g1, ?_⟩
      rw [← h2, recordTemp_events hext _ _ (Or.inl l3), hE, g2, add_assoc]
    · obtain ⟨n, b, -⟩ := l1 (Or.inr l3)
      obtain ⟨N, s, g1, g2⟩ := b.course
      rw [ha, hw] at g1
      rw [he, zero_add] at g2
      refine ⟨N, s + {wts x.2.2}, .followed g1, ?_⟩
      rw [← h2, recordTemp_events hext _ _ (Or.inr l3), hE, g2, add_assoc]
    · obtain ⟨n, hn, b, -, hf⟩ := l2 l3
      obtain ⟨N, s, g1, g2⟩ := b.course
      rw [ha, hw] at g1
      rw [he, zero_add] at g2
      refine ⟨N, s, .absorbed g1 hn hf, ?_⟩
      rw [← h2, l3, ← g2, ← hE]
      rfl
    · exact absurd (Or.inl l3) hne
    · exact absurd (Or.inr l3) hne
  · rename_i hn
    exfalso
    rcases hcode with hk | hk | hk
    · have hwc : wallCode D w.code (along P.exitC P.exitD w.d) = 1 ∨ wallCode D w.code (along P.exitC P.exitD w.d) = 3 := by
        unfold wallCode
        rw [if_pos hk]
        simp only
        split <;> split <;> simp
      rcases hwc with e | e
      · refine hn ⟨e, ?_⟩
        simpa using hbey hk
      · exact n3 e
    · exact n2 (by unfold wallCode; rw [if_neg (by omega)]; exact hk)
    · exact n3 (by unfold wallCode; rw [if_neg (by omega)]; exact hk)

/-- The reflection keeps the books. -/
theorem body_booked {D : Descr ℝ} (hext : 0 < D.prof.ext D.prof.nmax) (hnb : NoneBeyond D) (fuel : Nat)
    {tr : Int → Int → Nat → Photon ℝ → Out (Int × Nat × Photon ℝ)} (htr : ∀ q r, TraceBooked (tr q r)) (n : V3 ℝ) (P : Photon ℝ)
    (c : Int) (P' : Photon ℝ) (h : reflectBody D true fuel tr n P = .ok (c, P')) (hc : c = 0 ∨ c = 1) :
    Booked P P' 1 ∧ (c = 0 → Faint (wts P')) := by
  unfold reflectBody at h
  simp only at h
  split at h
  · injection h with h; injection h with h1 h2; omega
  rw [Out.bind_eq_ok] at h
  obtain ⟨w, hw, h⟩ := h
  have hw' : traceWall D fuel P.exitC (vnorm (vnorm P.exitD)) = .ok w := by simpa [wallOf] using hw
  obtain ⟨hwd, hwc⟩ := traceWall_d _ _ _ _ _ hw'
  have hb : w.code = 1 → (along P.exitC (vnorm (vnorm P.exitD)) w.d).z < D.prof.z D.prof.nmax := by
    intro h1
    by_cases h0 : dot P.exitD P.exitD = 0
    · have hv : vnorm (vnorm P.exitD) = ⟨0, 0, 0⟩ := by rw [vnorm_zero h0]; simp [vnorm]
      have := traceWall_before _ _ _ _ _ hw' (by omega)
      rw [hv]
      simpa [along] using this
    · exact hnb _ _ _ _ (dot_pos_of_ne h0).1 hw' h1
  have hQ : (renorm true { P with exitD := vnorm P.exitD }).exitC = P.exitC ∧
      (renorm true { P with exitD := vnorm P.exitD }).exitD = vnorm (vnorm P.exitD) ∧
      (renorm true { P with exitD := vnorm P.exitD }).chans = P.chans ∧
      (renorm true { P with exitD := vnorm P.exitD }).ext = P.ext ∧ (renorm true { P with exitD := vnorm P.exitD }).int = P.int :=
    ⟨rfl, by simp [renorm], rfl, rfl, rfl⟩
  generalize renorm true { P with exitD := vnorm P.exitD } = Q at hQ h
  obtain ⟨q1, q2, q3, q4, q5⟩ := hQ
  suffices hs : Booked Q P' 1 ∧ (c = 0 → Faint (wts P')) from ⟨hs.1.congr q3.symm q4.symm q5.symm rfl rfl rfl, hs.2⟩
  rw [← q1, ← q2] at hb
  unfold reflectRest at h
  split at h
  · injection h with h; injection h with h1 h2; omega
  rename_i hcode
  split at h
  · simp at h
  simp only at h
  split at h
  · injection h with h; injection h with h1 h2; omega
  rename_i hok
  have hok : (reflEnergies D (vnorm n) Q.exitD (scalar (vnorm P.exitD) (vnorm n)) true w.d Q.chans Q.exitE Q.exitE).ok = true := by
    simpa using hok
  obtain ⟨R, r1, r2, r3, r4, r5, r6⟩ := energies_split D (vnorm n) Q.exitD (scalar (vnorm P.exitD) (vnorm n)) w.d hwd Q.chans Q.exitE Q.exitE hok
  have r7 := reflEnergies_leakFlag D (vnorm n) Q.exitD (scalar (vnorm P.exitD) (vnorm n)) true w.d Q.chans Q.exitE Q.exitE
  generalize reflEnergies D (vnorm n) Q.exitD (scalar (vnorm P.exitD) (vnorm n)) true w.d Q.chans Q.exitE Q.exitE = r at *
  have hamu : ∀ X : Photon ℝ, X.chans = r.chans → amus X = amus Q := by
    intro X hX; rw [amus, hX, r3]; rfl
  have hwts : ∀ X : Photon ℝ, X.chans = r.chans → wts X = reflected R (wts Q) := by
    intro X hX; rw [wts, hX, r2]; rfl
  split at h
  · rename_i hl
    obtain ⟨y, hy, hge⟩ := r7 hl
    have hnf : ¬ Faint (arriving (amus Q) R w.d (wts Q)) := by
      intro hf
      have := hf y (by rw [r4] at hy; exact hy)
      linarith
    have hfr := reflectLeak_frame D tr _ w r.wl _ c P' h
    have hch : P'.chans = r.chans := hfr.2.2.2.1
    have hlen : r.wl.length = r.chans.length := by
      have e1 := congrArg List.length r2
      have e2 := congrArg List.length r3
      rw [r4, arriving_length (by simp) r1.len]
      simpa using e2.symm
    obtain ⟨M, s, f1, f2⟩ := leak_booked hext htr (P := { Q with chans := r.chans, exitE := r.ev }) (w := w)
      (by
        rcases hwc with e | e | e | e
        · exact absurd ⟨rfl, by omega⟩ hcode
        · exact Or.inl e
        · exact Or.inr (Or.inl e)
        · exact Or.inr (Or.inr e)) hb hlen h (by omega)
    rw [hamu _ rfl] at f1
    refine ⟨⟨hamu _ hch, 0 + 1 + M, 0 + s, ?_, by rw [f2, zero_add]; rfl⟩, ?_⟩
    · rw [hwts _ hch]
      rw [r4] at f1
      exact (Course.start (wts Q)).bounce r1 hnf f1
    · intro h0
      have hwf : r.weightFlag = false := by
        rcases hfr.2.2.2.2.2 with e | e
        · by_contra hne
          have : r.weightFlag = true := by simpa using hne
          rw [this] at e; simp at e; omega
        · omega
      have := r6 hwf
      rw [wts, hch]; exact this
  · rename_i hl
    injection h with h; injection h with h1 h2
    have hf := r5 (by simpa using hl)
    subst h2
    refine ⟨⟨hamu _ rfl, 0 + 1, 0, ?_, by rw [add_zero]; rfl⟩, ?_⟩
    · rw [hwts { Q with chans := r.chans, exitE := r.ev } rfl]
      rw [r4] at hf
      exact .faint R w.d (.start _) r1 hf
    · intro h0
      have hwf : r.weightFlag = false := by
        by_contra hne
        have : r.weightFlag = true := by simpa using hne
        rw [this] at h1; simp at h1; omega
      exact r6 hwf

theorem trace_booked {D : Descr ℝ} {refl : V3 ℝ → Photon ℝ → Out (Int × Photon ℝ)}
    (href : ∀ n P c P', refl n P = .ok (c, P') → c = 0 ∨ c = 1 → Booked P P' 1 ∧ (c = 0 → Faint (wts P')))
    (hcodes : ∀ n P c P', refl n P = .ok (c, P') → P'.i_refl = P.i_refl ∧ (c = -2 ∨ c = -1 ∨ c = 0 ∨ c = 1)) (capx capy : Nat → ℝ)
    (hret : ∀ P k i cur nrm code, traceSearch D capx capy P k i cur nrm = .ret code → code = -1 ∨ code = -3) :
    TraceBooked (capilTrace D refl capx capy) := by
  intro ix P c ix' P' h
  unfold capilTrace at h
  simp only at h
  split at h
  · rename_i code hs
    injection h with h; injection h with h1 h; injection h with h2 h3; subst h3
    rcases hret _ _ _ _ _ _ hs with e | e
    · rw [e] at h1; subst h1; exact ⟨fun h => absurd h (by decide), fun h => absurd h (by decide), fun h => absurd h (by decide), by decide⟩
    · rw [e] at h1; subst h1; exact ⟨fun h => absurd h (by decide), fun h => absurd h (by decide), fun h => absurd h (by decide), by decide⟩
  · injection h with h; injection h with h1 h; injection h with h2 h3; subst h3; subst h1
    exact ⟨fun h => absurd h (by decide), fun _ => ⟨.refl rfl rfl rfl, rfl⟩, fun h => absurd h (by decide), by decide⟩
  · unfold traceHit at h
    simp only at h
    split at h
    · injection h with h; injection h with h1 h; injection h with h2 h3; subst h1
      exact ⟨fun h => absurd h (by decide), fun h => absurd h (by decide), fun h => absurd h (by decide), by decide⟩
    split at h
    · simp at h
    split at h
    · injection h with h; injection h with h1 h; injection h with h2 h3; subst h1
      exact ⟨fun h => absurd h (by decide), fun h => absurd h (by decide), fun h => absurd h (by decide), by decide⟩
    split at h
    · injection h with h; injection h with h1 h; injection h with h2 h3; subst h1
      exact ⟨fun h => absurd h (by decide), fun h => absurd h (by decide), fun h => absurd h (by decide), by decide⟩
    rw [Out.bind_eq_ok] at h
    obtain ⟨⟨rc, R⟩, hR, h⟩ := h
    injection h with h
    obtain ⟨hi, hk⟩ := hcodes _ _ _ _ hR
    unfold afterReflect at h
    simp only at h
    split at h
    · rename_i e
      injection h with h1 h; injection h with h2 h3; subst h1 h3
      have hb := (href _ _ _ _ hR (Or.inr e)).1
      refine ⟨fun _ => ⟨hb.congr rfl rfl rfl rfl rfl rfl, by simp only; rw [hi]⟩, fun h => absurd h (by decide), fun h => absurd h (by decide), by decide⟩
    split at h
    · injection h with h1 h; injection h with h2 h3; subst h1
      exact ⟨fun h => absurd h (by decide), fun h => absurd h (by decide), fun h => absurd h (by decide), by decide⟩
    · rename_i e1 e2
      have e0 : rc = 0 := by omega
      injection h with h1 h; injection h with h2 h3; subst h1 h3
      obtain ⟨hb, hf⟩ := href _ _ _ _ hR (Or.inl e0)
      rw [e0]
      exact ⟨fun h => absurd h (by decide), fun h => absurd h (by decide), fun _ => ⟨hb.congr rfl rfl rfl rfl rfl rfl, hi, hf e0⟩, by decide⟩

theorem reflect_booked {D : Descr ℝ} (hext : 0 < D.prof.ext D.prof.nmax) (hnb : NoneBeyond D) (fuel : Nat) : ∀ (k : Nat) (n : V3 ℝ) (P : Photon ℝ)
    (c : Int) (P' : Photon ℝ), reflect D true fuel k n P = .ok (c, P') → c = 0 ∨ c = 1 → Booked P P' 1 ∧ (c = 0 → Faint (wts P')) := by
  intro k
  induction k with
  | zero => intro n P c P' h; simp [reflect] at h
  | succ k ih =>
    intro n P c P' h hc
    refine body_booked hext hnb fuel (fun q r => ?_) n P c P' h hc
    exact trace_booked (fun n P c P' h hc => ih n P c P' h hc)
      (fun n P c P' h => ⟨(reflect_frame D true fuel k n P c P' h).1.i_refl, (reflect_frame D true fuel k n P c P' h).2.2⟩) _ _
      (fun P k i cur nrm code h => traceSearch_ret' D _ _ P k i cur nrm code h)

theorem step_booked {D : Descr ℝ} (hext : 0 < D.prof.ext D.prof.nmax) (hnb : NoneBeyond D) (fuel k : Nat) (capx capy : Nat → ℝ) :
    TraceBooked (trace D true fuel k capx capy) :=
  trace_booked (fun n P c P' h hc => reflect_booked hext hnb fuel k n P c P' h hc)
    (fun n P c P' h => ⟨(reflect_frame D true fuel k n P c P' h).1.i_refl, (reflect_frame D true fuel k n P c P' h).2.2⟩) _ _
    (fun P k i cur nrm code h => traceSearch_ret' D _ _ P k i cur nrm code h)

/-! ## A whole launch -/

/-- the light a photon starts with: weight 1 at every energy -/
def full (es : List ℝ) : List ℝ := es.map fun _ => 1

/-- the linear absorption coefficients of the glass at these energies -/
noncomputable def absorption (lib : Xray ℝ) (D : Descr ℝ) (es : List ℝ) : List ℝ := es.map (amuOf lib D)

theorem init_books (lib : Xray ℝ) (D : Descr ℝ) (es : List ℝ) (P : Photon ℝ) :
    wts (launchInit lib D es P) = full es ∧ amus (launchInit lib D es P) = absorption lib D es ∧ events (launchInit lib D es P) = 0 := by
  refine ⟨?_, ?_, by simp [events, launchInit]⟩
  · simp [wts, launchInit, full, Function.comp_def]
  · simp [amus, launchInit, absorption, Function.comp_def]

theorem events_finish (P : Photon ℝ) : events (finish P) = events P := rfl

/-- Books of a launch in a capillary. -/
theorem inside_booked {lib : Xray ℝ} {D : Descr ℝ} (hext : 0 < D.prof.ext D.prof.nmax) (hnb : NoneBeyond D) {fuel k : Nat} {qr : Int × Int}
    {es : List ℝ} {P : Photon ℝ} {c : Int} {o : WOut ℝ} {P' : Photon ℝ}
    (h : launchInside D true fuel k qr (launchInit lib D es P) = .ok (c, o, P')) (hc : c = 0 ∨ c = 1) :
    ∃ ws n N, o = .filled ws ∧ Course (absorption lib D es) n N (full es) ws (events P') ∧
      (c = 1 → P'.i_refl = n) ∧ (c = 0 → P'.i_refl + 1 = n ∧ Faint ws) := by
  obtain ⟨i1, i2, i3⟩ := init_books lib D es P
  have i4 : (launchInit lib D es P).i_refl = 0 := rfl
  obtain ⟨iesc, ix, Q, hx, -, -, k2, k3, ho, hP⟩ := launchInside_inv _ _ _ _ _ _ _ _ _ h
  obtain ⟨l1, l2, -⟩ := loop_booked (step_booked hext hnb fuel k _ _) _ _ _ _ _ hx
  simp only at l1 l2
  subst hP
  rw [events_finish]
  rcases hc with rfl | rfl
  · obtain ⟨n, -, b, r, f⟩ := l2 (k2.2 rfl)
    obtain ⟨N, s, g1, g2⟩ := b.course
    rw [i1, i2] at g1
    rw [i3, zero_add] at g2
    refine ⟨wts Q, n, N, ho, g2 ▸ g1, fun h => absurd h (by decide), fun _ => ⟨?_, f⟩⟩
    show Q.i_refl + 1 = n
    omega
  · obtain ⟨n, b, r⟩ := l1 (k3.2 rfl)
    obtain ⟨N, s, g1, g2⟩ := b.course
    rw [i1, i2] at g1
    rw [i3, zero_add] at g2
    refine ⟨wts Q, n, N, ho, g2 ▸ g1, fun _ => ?_, fun h => absurd h (by decide)⟩
    show Q.i_refl = n
    omega

/-- light `w` after a way `t` through glass -/
noncomputable def attenuated (amu : List ℝ) (t : ℝ) (w : List ℝ) : List ℝ := List.zipWith (fun m x => x * Real.exp (-(t * m))) amu w

theorem recordLaunch_events {D : Descr ℝ} (hext : 0 < D.prof.ext D.prof.nmax) (P : Photon ℝ) {iesc : Int} (h : iesc = 1 ∨ iesc = -2) :
    events (recordLaunch D P iesc) = events P + {wts P} := by
  have hb : ∀ x y, withinPcBoundary (D.prof.ext D.prof.nmax) x y = 0 ∨ withinPcBoundary (D.prof.ext D.prof.nmax) x y = 1 := by
    intro x y
    obtain ⟨-, b1, b2⟩ := boundary_spec (D.prof.ext D.prof.nmax) x y
    by_cases hi : InHex (D.prof.ext D.prof.nmax) x y
    · exact Or.inr (b1 hext hi)
    · exact Or.inl (b2 hext hi)
  unfold recordLaunch
  rw [if_pos h]
  simp only
  rcases hb (toExit D.prof P.exitC P.exitD).x (toExit D.prof P.exitC P.exitD).y with hb | hb
  · simp only [hb, if_true, events_eq, List.map_append, List.map_cons, List.map_nil]
    simp only [← Multiset.coe_add, Multiset.coe_singleton, wts]
    abel
  · simp only [hb, if_true, show ¬ ((1:Int) = 0) by decide, if_false, events_eq, List.map_append, List.map_cons, List.map_nil]
    simp only [← Multiset.coe_add, Multiset.coe_singleton, wts]
    abel

theorem attenuate_wts (d : ℝ) (cs : List (Chan ℝ)) :
    (cs.map (attenuate d)).map (·.w) = attenuated (cs.map (·.amu)) d (cs.map (·.w)) ∧ (cs.map (attenuate d)).map (·.amu) = cs.map (·.amu) := by
  have em : ((-1:ℚ):ℝ) = -1 := by norm_num
  induction cs with
  | nil => simp [attenuated]
  | cons c cs ih =>
    simp only [attenuated, List.map_cons, List.zipWith_cons_cons] at ih ⊢
    refine ⟨?_, by rw [ih.2]; rfl⟩
    rw [ih.1]
    simp only [attenuate, real_mul, real_exp, real_lit, em]
    congr 3; ring

/-- Books of a launch in glass, below the entrance. -/
theorem wall_booked {D : Descr ℝ} (hext : 0 < D.prof.ext D.prof.nmax) (hnb : NoneBeyond D) {fuel k : Nat} {P : Photon ℝ} {w : Wall ℝ}
    (he : P.ext = []) (hi : P.int = []) {o : WOut ℝ} {P' : Photon ℝ} (h : launchWall D true fuel k P w = .ok (1, o, P')) :
    ∃ M, Fate (amus P) M (attenuated (amus P) w.d (wts P)) (events P') := by
  obtain ⟨aw, aa⟩ := attenuate_wts w.d P.chans
  unfold launchWall at h
  simp only at h
  split at h
  · injection h with h; injection h with h1 h; omega
  split at h
  · simp at h
  split at h
  · injection h with h; injection h with h1 h; injection h with h2 h3; subst h3
    refine ⟨0, ?_⟩
    have : events (finish (clearWall D { P with
      chans := P.chans.map (attenuate w.d), exitC := along P.exitC P.exitD w.d,
      ext := P.ext ++ [⟨along P.exitC P.exitD w.d, P.exitD, P.exitE, P.i_refl, (P.chans.map (attenuate w.d)).map (·.w)⟩] })) =
        {attenuated (amus P) w.d (wts P)} := by
      rw [aw]; simp [events, finish, clearWall, he, hi, amus, wts]
    rw [this]; exact .recorded _
  split at h
  · injection h with h; injection h with h1 h; injection h with h2 h3; subst h3
    refine ⟨0, ?_⟩
    have : events (finish (clearWall D { P with
      chans := P.chans.map (attenuate w.d), exitC := along P.exitC P.exitD w.d,
      int := P.int ++ [⟨along P.exitC P.exitD w.d, P.exitD, P.exitE, P.i_refl, (P.chans.map (attenuate w.d)).map (·.w)⟩] })) =
        {attenuated (amus P) w.d (wts P)} := by
      rw [aw]; simp [events, finish, clearWall, he, hi, amus, wts]
    rw [this]; exact .recorded _
  rw [Out.bind_eq_ok] at h
  obtain ⟨x, hx, h⟩ := h
  obtain ⟨l1, l2, l3⟩ := loop_booked (step_booked hext hnb fuel k _ _) _ _ _ _ _ hx
  split at h
  · injection h with h; injection h with h1 h; omega
  rename_i hne
  injection h with h; injection h with h1 h; injection h with h2 h3; subst h3
  have hev : ∀ Q : Photon ℝ, events (finish (clearWall D Q)) = events Q := fun _ => rfl
  rw [hev]
  have go : ∀ n : ℕ, Booked { P with chans := P.chans.map (attenuate w.d), exitC := along P.exitC P.exitD w.d, d_travel := P.d_travel +. w.d } x.2.2 n →
      ∃ N, Course (amus P) n N (attenuated (amus P) w.d (wts P)) (wts x.2.2) (events x.2.2) := by
    intro n b
    obtain ⟨N, s, g1, g2⟩ := b.course
    have e0 : events { P with chans := P.chans.map (attenuate w.d), exitC := along P.exitC P.exitD w.d, d_travel := P.d_travel +. w.d } = 0 := by
      simp [events, he, hi]
    rw [e0, zero_add] at g2
    rw [g2]
    refine ⟨N, ?_⟩
    have e1 : amus { P with chans := P.chans.map (attenuate w.d), exitC := along P.exitC P.exitD w.d, d_travel := P.d_travel +. w.d } = amus P := aa
    have e2 : wts { P with chans := P.chans.map (attenuate w.d), exitC := along P.exitC P.exitD w.d, d_travel := P.d_travel +. w.d } =
      attenuated (amus P) w.d (wts P) := aw
    rw [e1, e2] at g1
    exact g1
  rcases l3 with l3 | l3 | l3 | l3 | l3
  · obtain ⟨n, b, -⟩ := l1 (Or.inl l3)
    obtain ⟨N, g⟩ := go n b
    refine ⟨N, ?_⟩
    rw [recordLaunch_events hext _ (Or.inl l3)]
    exact .followed g
  · obtain ⟨n, b, -⟩ := l1 (Or.inr l3)
    obtain ⟨N, g⟩ := go n b
    refine ⟨N, ?_⟩
    rw [recordLaunch_events hext _ (Or.inr l3)]
    exact .followed g
  · obtain ⟨n, hn, b, -, f⟩ := l2 l3
    obtain ⟨N, g⟩ := go n b
    refine ⟨N, ?_⟩
    rw [l3]
    exact .absorbed g hn f
  · exact absurd (Or.inl l3) hne
  · exact absurd (Or.inr l3) hne

/-- a reflection that fails records nothing -/
theorem reflect_silent {D : Descr ℝ} (fuel k : Nat) (n : V3 ℝ) (P : Photon ℝ) (c : Int) (P' : Photon ℝ)
    (h : reflect D true fuel k n P = .ok (c, P')) (hc : c = -2 ∨ c = -1) : events P' = events P := by
  cases k with
  | zero => simp [reflect] at h
  | succ k =>
    unfold reflect reflectBody at h
    simp only at h
    split at h
    · injection h with h; injection h with h1 h2; subst h2; rfl
    rw [Out.bind_eq_ok] at h
    obtain ⟨w, -, h⟩ := h
    unfold reflectRest at h
    split at h
    · injection h with h; injection h with h1 h2; subst h2; rfl
    split at h
    · simp at h
    simp only at h
    split at h
    · injection h with h; injection h with h1 h2; subst h2; rfl
    split at h
    · unfold reflectLeak at h
      simp only at h
      split at h
      · injection h with h; injection h with h1 h2; split at h1 <;> omega
      split at h
      · injection h with h; injection h with h1 h2; split at h1 <;> omega
      split at h
      · split at h
        · simp at h
        rw [Out.bind_eq_ok] at h
        obtain ⟨x, -, h⟩ := h
        split at h
        · injection h with h; injection h with h1 h2; subst h2; rfl
        · injection h with h; injection h with h1 h2; split at h1 <;> omega
      · injection h with h; injection h with h1 h2; split at h1 <;> omega
    · injection h with h; injection h with h1 h2; split at h1 <;> omega

/-- What a launch with leak calculation of a photon of energies `es` hands out – the return value, the weights and the photon with its
leak events – accounts for all of its light. -/
structure Accounted (lib : Xray ℝ) (D : Descr ℝ) (es : List ℝ) (c : Int) (o : WOut ℝ) (P' : Photon ℝ) : Prop where
  /-- the photon came out of its bore: the weights and the leak events are those of the light after all the reflections it counts -/
  transmitted : c = 1 → ∀ ws, o = .filled ws → ∃ n N : ℕ, P'.i_refl = n ∧ Course (absorption lib D es) n N (full es) ws (events P')
  /-- the photon was absorbed: all weights are below the threshold after one reflection more -/
  absorbed : c = 0 → ∃ ws, o = .filled ws ∧ Faint ws ∧ ∃ n N : ℕ, P'.i_refl + 1 = n ∧ Course (absorption lib D es) n N (full es) ws (events P')
  /-- the photon was launched in the glass, not at the entrance -/
  glass : c = 1 → o = .uninit → ∃ t, 0 ≤ t ∧ ∃ M, Fate (absorption lib D es) M (attenuated (absorption lib D es) t (full es)) (events P')
  /-- the photon was launched into the glass from the entrance: one reflection there; or the reflection failed, and nothing was recorded -/
  front : c = 2 → events P' = 0 ∨ ∃ N ws, Course (absorption lib D es) 1 N (full es) ws (events P')

/-- **C89.** For any optic in which light enters bores only above the exit plane (`NoneBeyond`; see `mono_noneBeyond`, `poly_forgets`). -/
theorem launch_accounts_partial (lib : Xray ℝ) (D : Descr ℝ) (hext : 0 < D.prof.ext D.prof.nmax) (hnb : NoneBeyond D) (fuel k : Nat) (P : Photon ℝ)
    (es : List ℝ) (hes : es ≠ []) (hb : ∀ e ∈ es, 1 ≤ e ∧ e ≤ 100) (c : Int) (o : WOut ℝ) (P' : Photon ℝ)
    (h : launch lib (some D) true fuel k (some P) (some es) true = .ok (c, o, some P')) : Accounted lib D es c o P' := by
  obtain ⟨D', P'', es', e1, e2, e3, -, -, -, h'⟩ := launch_valid lib (some D) true fuel k (some P) (some es) true (not_argsBad hes hb)
  injection e1 with e1; injection e2 with e2; injection e3 with e3; subst e1 e2 e3
  rw [h', Out.bind_eq_ok] at h
  obtain ⟨⟨c', o', Q⟩, hx, h⟩ := h
  injection h with h; injection h with h1 h; injection h with h2 h3; injection h3 with h3
  simp only at h1 h2 h3
  subst h1 h2 h3
  obtain ⟨i1, i2, i3⟩ := init_books lib D es P
  cases launchBody_ended _ _ _ _ _ _ _ _ _ _ hx with
  | outside => exact ⟨fun h => absurd h (by decide), fun h => absurd h (by decide), fun h => absurd h (by decide), fun h => absurd h (by decide)⟩
  | glass => exact ⟨fun h => absurd h (by decide), fun h => absurd h (by decide), fun h => absurd h (by decide), fun _ => Or.inl i3⟩
  | front qr _ _ _ _ x hf =>
    refine ⟨fun h => absurd h (by decide), fun h => absurd h (by decide), fun h => absurd h (by decide), fun _ => ?_⟩
    obtain ⟨rc, R⟩ := x
    obtain ⟨-, -, hrc⟩ := reflect_frame _ _ _ _ _ _ _ _ hf
    rw [events_finish]
    rcases hrc with e | e | e | e
    · left; rw [reflect_silent _ _ _ _ _ _ hf (Or.inl e), i3]
    · left; rw [reflect_silent _ _ _ _ _ _ hf (Or.inr e), i3]
    · right
      obtain ⟨N, s, g1, g2⟩ := (reflect_booked hext hnb _ _ _ _ _ _ hf (Or.inl e)).1.course
      rw [i1, i2] at g1
      rw [i3, zero_add] at g2
      exact ⟨N, _, by simp only; rw [g2]; exact g1⟩
    · right
      obtain ⟨N, s, g1, g2⟩ := (reflect_booked hext hnb _ _ _ _ _ _ hf (Or.inr e)).1.course
      rw [i1, i2] at g1
      rw [i3, zero_add] at g2
      exact ⟨N, _, by simp only; rw [g2]; exact g1⟩
  | within qr _ _ _ _ _ w hw c o P' hy =>
    obtain ⟨k1, k2⟩ := launchWall_codes _ _ _ _ _ _ _ _ _ hy
    refine ⟨fun _ ws h => absurd (k2.symm.trans h) (by simp), fun h => by omega, fun h _ => ?_, fun h => by omega⟩
    subst h
    obtain ⟨M, f⟩ := wall_booked hext hnb rfl rfl hy
    have e1 : amus { launchInit lib D es P with exitD := vnorm (launchInit lib D es P).exitD } = absorption lib D es := i2
    have e2 : wts { launchInit lib D es P with exitD := vnorm (launchInit lib D es P).exitD } = full es := i1
    rw [e1, e2] at f
    exact ⟨w.d, (traceWall_d _ _ _ _ _ hw).1, M, f⟩
  | inside qr _ _ c o P' hy =>
    obtain ⟨iesc, ix, Q, -, -, -, -, -, ho, -⟩ := launchInside_inv _ _ _ _ _ _ _ _ _ hy
    refine ⟨fun h ws hws => ?_, fun h => ?_, fun _ h => absurd (ho.symm.trans h) (by simp), fun h => ?_⟩
    · obtain ⟨ws', n, N, e, g, g1, -⟩ := inside_booked hext hnb hy (Or.inr h)
      rw [hws] at e; injection e with e; subst e
      exact ⟨n, N, g1 h, g⟩
    · obtain ⟨ws', n, N, e, g, -, g1⟩ := inside_booked hext hnb hy (Or.inl h)
      exact ⟨ws', e, (g1 h).2, n, N, (g1 h).1, g⟩
    · obtain ⟨iesc, ix, Q, -, hc, k1, k2, k3, -⟩ := launchInside_inv _ _ _ _ _ _ _ _ _ hy
      omega

/-- **C89**, what it means for the light of energy number `j` of a transmitted photon: what came out of its bore and what was recorded together
are not more than what went in; and where the glass is transparent, not less but for 1e-4 at each of the reflections. -/
theorem Accounted.balance {lib : Xray ℝ} {D : Descr ℝ} {es : List ℝ} {o : WOut ℝ} {P' : Photon ℝ} (h : Accounted lib D es 1 o P') {ws : List ℝ}
    (ho : o = .filled ws) {j : ℕ} (hj : j < es.length) (hm : 0 ≤ (absorption lib D es).getD j 0) :
    0 ≤ ws.getD j 0 ∧ 0 ≤ sumAt j (events P') ∧ ws.getD j 0 + sumAt j (events P') ≤ 1 ∧
    ((absorption lib D es).getD j 0 = 0 → ∃ N : ℕ, 1 - N * (1 / 10 ^ 4) ≤ ws.getD j 0 + sumAt j (events P')) := by
  obtain ⟨n, N, -, g⟩ := h.transmitted rfl ws ho
  have hf : (full es).getD j 0 = 1 := by simp [full, hj]
  obtain ⟨-, b1, b2, b3, b4⟩ := g.balance j (by simp [absorption, full]) (by rw [hf]; norm_num) hm
  rw [hf] at b3 b4
  exact ⟨b1, b2, b3, fun h => ⟨N, b4 h⟩⟩

/-- In a monocapillary light that leaves the glass in the bore does so above the exit plane. -/
theorem mono_noneBeyond {D : Descr ℝ} (g : Grid D.prof) (hn : 1 ≤ D.n_cap) (hmono : D.n_cap ≤ 3) : NoneBeyond D := by
  intro fuel c d w hu h hc
  have h2 := g.two
  have hb := traceWall_before _ _ _ _ _ h (by omega)
  unfold traceWall at h
  simp only at h
  split at h
  · injection h with h; subst h; simp at hc
  rw [if_pos ((nShells_zero_iff _ hn).2 hmono)] at h
  split at h
  · injection h with h; subst h; simp at hc
  unfold wallEnd at h
  split at h
  · have : ∀ {v q r w}, wallExit D.prof c d v q r = .ok w → w.code = 3 ∨ w.code = 2 := by
      intro v q r w h
      unfold wallExit at h
      simp only at h
      split at h
      · rw [Out.bind_eq_ok] at h
        obtain ⟨x, -, h⟩ := h
        split at h <;> (injection h with h; subst h; simp)
      · injection h with h; subst h; simp
    have := this h
    omega
  rename_i h1
  split at h
  · injection h with h; subst h; simp at hc
  rename_i hlt
  injection h with h; subst h
  generalize hns : nShells (α := ℝ) D.n_cap = ns at *
  rcases wallSegs_hit (p := D.prof) (ns := ns) (q := 0) (r := 0) hu (D.prof.nmax - 1 - (segIdFrom D.prof.z 0 c.z D.prof.nmax + 1))
    (segIdFrom D.prof.z 0 c.z D.prof.nmax) c le_rfl with ⟨a, -⟩ | ⟨i, -, -, -, e, hd, l1, l2, -, l4⟩
  · exact absurd a h1
  have hv := gap_line hu hd l1 l2
  rw [← dist3_gap] at hv
  simp only
  rw [along_unit hu]
  have hz := congrArg V3.z hv
  simp only [walk] at hz
  rw [hz]
  exact lt_of_le_of_lt l4 (strict_of_step g.inc (by omega) le_rfl)

/-- **C89**, monocapillaries: every launch with leak calculation accounts for all its light. -/
theorem mono_launch_accounts (lib : Xray ℝ) (D : Descr ℝ) (g : Grid D.prof) (hext : 0 < D.prof.ext D.prof.nmax) (hn : 1 ≤ D.n_cap)
    (hmono : D.n_cap ≤ 3) (fuel k : Nat) (P : Photon ℝ) (es : List ℝ) (hes : es ≠ []) (hb : ∀ e ∈ es, 1 ≤ e ∧ e ≤ 100) (c : Int) (o : WOut ℝ)
    (P' : Photon ℝ) (h : launch lib (some D) true fuel k (some P) (some es) true = .ok (c, o, some P')) : Accounted lib D es c o P' :=
  launch_accounts_partial lib D hext (mono_noneBeyond g hn hmono) fuel k P es hes hb c o P' h

/-- the hypotheses are met by a photon that is reflected twice, leaks at both reflections and comes out of a monocapillary -/
example : ∃ P P' s, launch zLib (some WideTube.wD) true 0 1 (some P) (some [10]) true = .ok (1, .filled [WideTube.ro * WideTube.ro], some P') ∧
    s = events P' ∧ 2 ≤ s.card ∧ ∃ N, Course [0] 2 N [1] [WideTube.ro * WideTube.ro] s := by
  obtain ⟨P', h, a, b, -⟩ := WideTube.w_launch true 0 0 (exP ⟨0, 0, 0⟩ ⟨zs, 0, zc⟩ 0) rfl rfl
  have A := mono_launch_accounts zLib WideTube.wD WideTube.wGrid (by simp [WideTube.wD, WideTube.wProf]) (by simp [WideTube.wD])
    (by simp [WideTube.wD]) 0 1 _ [10] (by simp) (by intro e he; simp at he; subst he; norm_num) _ _ _ h
  obtain ⟨n, N, e, g⟩ := A.transmitted rfl _ rfl
  have e2 : n = 2 := by rw [a] at e; exact_mod_cast e.symm
  subst e2
  have e3 : absorption zLib WideTube.wD [10] = [0] := by simp [absorption, amuOf, WideTube.wD, zLib]
  rw [e3] at g
  refine ⟨_, P', _, h, rfl, ?_, N, g⟩
  simp only [events, Multiset.coe_card, List.length_map, List.length_append, b, if_true]
  omega

/-! ## Polycapillaries -/

/-- seven capillaries of radius 0.1 cm, 0.005 cm long -/
noncomputable def fgD : Descr ℝ := ⟨1, 7, [14], [1], 223/100, ⟨2, fun i => i / 400, fun _ => 1/10, fun _ => 1⟩⟩

theorem fg_const (z0 z1 v z : ℝ) : interp z0 z1 v v z = v := by rw [linAt_interp]; simp [linAt]

theorem fg_round : hexRound (α := ℝ) 1 1 (103/1000) 0 = (0, 0) := by
  have hc := cospi6_pos
  have f : hexFrac (hexCell 1 (1:ℝ)) (103/1000) 0 = (206/1000, 0) := by
    rw [hexFrac_real, hexCell_real]
    refine Prod.ext ?_ ?_
    · simp only [zero_div, sub_zero]; field_simp; norm_num
    · simp
  have r1 : realRoundAway (206/1000) = 0 := round_of_near (by norm_num) (by norm_num)
  have r2 : realRoundAway 0 = 0 := round_of_near (by norm_num) (by norm_num)
  have r3 : realRoundAway (-1 * (206/1000) - 0) = 0 := round_of_near (by norm_num) (by norm_num)
  simp only [hexRound, f, cubeRound, real_sub, real_mul, real_lit, real_roundI, real_fabs, real_ofInt, gt, real_lt]
  rw [show ((-1 : ℚ) : ℝ) = -1 by norm_num, r1, r2, r3]
  norm_num

theorem fg_wall : traceWall fgD 1 ⟨103/1000, 0, 0⟩ ⟨-3/5, 0, 4/5⟩ = .ok ⟨1, 1/100, 0, 0⟩ := by
  have h7 : nShells (α := ℝ) fgD.n_cap = 1 := nShells_7
  have hge : (((0:ℝ)) >=. fgD.prof.z fgD.prof.nmax) = false := by
    simp only [ge, real_le, decide_eq_false_iff_not, fgD]; norm_num
  have hext : ∀ i, wallExt fgD.prof i (0:ℝ) = 1 := by
    intro i
    unfold wallExt interpAt
    split
    · exact fg_const _ _ _ _
    · rfl
  have hb := boundary_contains_disc 1 (103/1000) 0 (by norm_num) (by norm_num)
  have hcc : capCentre (α := ℝ) 1 1 0 0 = (0, 0) := by rw [capCentre_real _ (by norm_num)]; simp [centreX, centreY]
  unfold traceWall
  simp only [hge, h7, hext, Bool.false_eq_true, if_false, one_ne_zero, hb, fg_round]
  unfold wallHex wallStep
  have hcap : fgD.prof.cap (segIdFrom fgD.prof.z 0 0 fgD.prof.nmax) = 1/10 := rfl
  have hx : (103/1000 : ℝ) +. (lit 0 +. (1/10) /. lit 10) *. (-3/5) = 97/1000 := by simp; norm_num
  have hy : (0 : ℝ) +. (lit 0 +. (1/10) /. lit 10) *. 0 = 0 := by simp
  have hz : (0 : ℝ) +. (lit 0 +. (1/10) /. lit 10) *. (4/5) = 8/1000 := by simp; norm_num
  have hci : ∀ i z, interpAt fgD.prof fgD.prof.ext i z = (1:ℝ) := fun i z => fg_const _ _ _ _
  have hcr : ∀ i z, interpAt fgD.prof fgD.prof.cap i z = (1/10:ℝ) := fun i z => fg_const _ _ _ _
  have hd : dist3 (⟨97/1000, 0, 8/1000⟩ : V3 ℝ) ⟨103/1000, 0, 0⟩ = 1/100 := by
    rw [dist3_gap, gap]
    rw [show (97/1000 - 103/1000 : ℝ) ^ 2 + (0 - 0) ^ 2 + (8/1000 - 0) ^ 2 = (1/100) ^ 2 by norm_num, Real.sqrt_sq (by norm_num)]
  have h0 : sqrt (((97/1000 : ℝ) -. 0) *. ((97/1000) -. 0) +. ((0:ℝ) -. 0) *. (0 -. 0)) = (97/1000 : ℝ) := by
    simp only [real_sqrt, real_sub, real_mul, real_add]
    rw [show (97/1000 - 0) * (97/1000 - 0) + (0 - 0) * (0 - 0) = ((97/1000) ^ 2 : ℝ) by norm_num, Real.sqrt_sq (by norm_num)]
  have ht : ((97/1000 : ℝ) <. (1/10) && inStack 1 0 0 && (1/100 : ℝ) >. lit (1/10^5)) = true := by
    simp only [gt, real_lt, real_lit, Bool.and_eq_true, decide_eq_true_eq]
    refine ⟨⟨by norm_num, by decide⟩, by norm_num⟩
  simp only [hcap, hx, hy, hz, hci, hcr, hcc, h0, hd, ht, if_true, Out.bind_ok]

theorem fg_reflect (k : Nat) (P : Photon ℝ) (hC : P.exitC = ⟨103/1000, 0, 0⟩) (hD : P.exitD = ⟨-3/5, 0, 4/5⟩) (hch : P.chans = [⟨10, 1, 0, 1/2⟩])
    (hco : P.coef = true) (he : P.ext = []) (hi : P.int = []) :
    ∃ c P', reflect fgD true 1 (k + 1) ⟨0, 0, 1⟩ P = .ok (c, P') ∧ 0 ≤ c ∧ P'.ext = [] ∧ P'.int = [] ∧ ∃ x ≤ 1/2, wts P' = [x] := by
  have hw1 := fg_wall
  have e0 : ((0:ℚ):ℝ) = 0 := by norm_num
  have e1 : ((1:ℚ):ℝ) = 1 := by norm_num
  have e4 : ((1/10^4:ℚ):ℝ) = 1/10^4 := by norm_num
  have hu : dot (⟨-3/5, 0, 4/5⟩ : V3 ℝ) ⟨-3/5, 0, 4/5⟩ = 1 := by unfold dot; norm_num
  have huu := vnorm_unit _ hu
  have hsc : scalar (⟨-3/5, 0, 4/5⟩ : V3 ℝ) ⟨0, 0, 1⟩ = 4/5 := by rw [scalar_real]; unfold dot; norm_num
  have hneg : ((4/5 : ℝ) <. lit 0) = false := by simp only [real_lt, real_lit, e0, decide_eq_false_iff_not]; norm_num
  have hp := reflectivity_probability 10 (223/100) (1/2) 0 ⟨0, 0, 1⟩ ⟨-3/5, 0, 4/5⟩ P.exitE P.exitE (by norm_num) (by norm_num) (by norm_num) le_rfl
    (by simp only [reflAlfa, cHC, cNAVOG, cR0, mpi, real_mul, real_div, real_lit]; norm_num) (by unfold dot; norm_num)
  have hrough : roughFactor (1:ℝ) 10 (4/5) ≤ 1 / 2 := by
    simp only [roughFactor, real_mul, real_exp, real_lit]
    have h : Real.exp (((-1:ℚ):ℝ) * (((101358/10^5:ℚ):ℝ) * 10 * (4/5) * 1) * (((101358/10^5:ℚ):ℝ) * 10 * (4/5) * 1)) ≤ Real.exp (-1) := by
      apply Real.exp_le_exp.2; norm_num
    refine h.trans ?_
    rw [Real.exp_neg, one_div]
    exact inv_anti₀ (by norm_num) (by have := Real.add_one_le_exp (1:ℝ); linarith)
  have hrough0 : 0 ≤ roughFactor (1:ℝ) 10 (4/5) := by simp only [roughFactor, real_exp]; exact (Real.exp_pos _).le
  unfold reflect reflectBody
  simp only [hD, vnorm_z, huu, hsc, hneg, Bool.false_eq_true, if_false, wallOf, renorm, if_true, hC, hw1, Out.bind_ok]
  unfold reflectRest
  rw [if_neg (by simp), if_neg (by simp [hco])]
  simp only [hch, reflEnergies]
  rw [show fgD.density = 223/100 from rfl, show fgD.sig_rough = 1 from rfl]
  generalize reflPolar (10:ℝ) (223/100) (1/2) 0 ⟨0, 0, 1⟩ ⟨-3/5, 0, 4/5⟩ P.exitE P.exitE = x at hp ⊢
  have hr1 : (x.1 <. lit 0 || x.1 >. lit 1) = false := by
    simp only [gt, real_lt, real_lit, e0, e1, Bool.or_eq_false_iff, decide_eq_false_iff_not]
    exact ⟨by linarith [hp.1], by linarith [hp.2]⟩
  have hfl : (leakWeight x.1 (roughFactor (1:ℝ) 10 (4/5)) 1 (1/100) 0 >=. lit (1/10^4)) = true := by
    simp only [leakWeight, ge, real_le, real_lit, e1, e4, decide_eq_true_eq, real_sub, real_mul, real_exp, mul_zero, Real.exp_zero, mul_one]
    nlinarith [hp.1, hp.2]
  simp only [hr1, hfl, Bool.false_eq_true, if_false, Bool.true_and, Bool.or_false, Bool.not_true, if_true]
  unfold reflectLeak
  have hal : along (⟨103/1000, 0, 0⟩ : V3 ℝ) ⟨-3/5, 0, 4/5⟩ (1/100) = ⟨97/1000, 0, 8/1000⟩ := by
    rw [along_unit hu]; simp only [V3.mk.injEq]; norm_num
  have hcode : wallCode fgD 1 (⟨97/1000, 0, 8/1000⟩ : V3 ℝ) = 1 := by
    have h7 : nShells (α := ℝ) fgD.n_cap = 1 := nShells_7
    have hb := boundary_contains_disc 1 (97/1000) 0 (by norm_num) (by norm_num)
    have hx : ∀ z : ℝ, extAt fgD.prof 0 z = 1 := fun z => fg_const _ _ _ _
    unfold wallCode
    simp only [if_true, h7, hx, hb]
    simp
  have hz : ((8/1000 : ℝ) <. fgD.prof.z fgD.prof.nmax) = false := by
    simp only [real_lt, decide_eq_false_iff_not, fgD]; norm_num
  simp only [hal, hcode, hz]
  rw [if_neg (by decide), if_neg (by decide), if_neg (by simp)]
  refine ⟨_, _, rfl, by split <;> simp, he, hi, _, ?_, rfl⟩
  simp only [real_mul]
  nlinarith [hp.1, hp.2]

/-- **C89 fails for polycapillaries.** The wall of a bore is looked for in steps of a tenth of its radius, and a step may end below the
exit plane.  Here a photon comes down on the glass of a 7-capillary optic, 0.003 cm beside a bore, so inclined that it passes the wall of the
bore and then the exit plane within the first step.  At most half of its light is reflected and the glass is transparent, but there is no leak event. -/
theorem poly_forgets : ∃ P' R, launch zLib (some fgD) true 1 1 (some (exP ⟨103/1000, 0, 0⟩ ⟨-3/5, 0, 4/5⟩ 0)) (some [10]) true = .ok (2, .uninit, some P') ∧
    events P' = 0 ∧ absorption zLib fgD [10] = [0] ∧ (∃ c, 0 ≤ c ∧ reflect fgD true 1 1 ⟨0, 0, 1⟩ (launchInit zLib fgD [10] (exP ⟨103/1000, 0, 0⟩ ⟨-3/5, 0, 4/5⟩ 0)) = .ok (c, R)) ∧
    P' = finish R ∧ ∃ x ≤ 1/2, wts R = [x] := by
  have hb : ¬ ArgsBad (some fgD) (some (exP ⟨103/1000, 0, 0⟩ ⟨-3/5, 0, 4/5⟩ 0)) (some [(10:ℝ)]) true :=
    not_argsBad (by simp) (by intro e he; simp at he; subst he; norm_num)
  obtain ⟨D', P'', es', e1, e2, e3, -, -, -, h'⟩ :=
    launch_valid zLib (some fgD) true 1 1 (some (exP ⟨103/1000, 0, 0⟩ ⟨-3/5, 0, 4/5⟩ 0)) (some [(10:ℝ)]) true hb
  injection e1 with e1; injection e2 with e2; injection e3 with e3; subst e1 e2 e3
  rw [h']
  have e0 : ((0:ℚ):ℝ) = 0 := by norm_num
  have h7 : nShells (α := ℝ) fgD.n_cap = 1 := nShells_7
  have hle : launchExt fgD.prof (0:ℝ) = 1 := by
    unfold launchExt interpL; simp [fgD]
  have hc : launchCap fgD ⟨103/1000, 0, 0⟩ = some (0, 0) := by
    unfold launchCap
    have hb := boundary_contains_disc 1 (103/1000) 0 (by norm_num) (by norm_num)
    simp only [h7, hle, one_ne_zero, if_false, hb, fg_round]
  have hw : startsInWall fgD (0, 0) ⟨103/1000, 0, 0⟩ = true := by
    have hcc : capCentre (α := ℝ) 1 1 0 0 = (0, 0) := by rw [capCentre_real _ (by norm_num)]; simp [centreX, centreY]
    have a1 : ∀ i, axX fgD (0, 0) i = 0 := fun i => by simp only [axX, h7]; exact congrArg Prod.fst hcc
    have a2 : ∀ i, axY fgD (0, 0) i = 0 := fun i => by simp only [axY, h7]; exact congrArg Prod.snd hcc
    unfold startsInWall atStart
    simp only [gt, real_lt, real_lit, e0, lt_irrefl, decide_false, Bool.false_eq_true, if_false, a1, a2, real_sqrt, real_sub, real_mul, real_add]
    rw [show (103/1000 - 0) * (103/1000 - 0) + (0 - 0) * (0 - 0) = ((103/1000) ^ 2 : ℝ) by norm_num, Real.sqrt_sq (by norm_num)]
    simp only [fgD]; norm_num
  have hz0 : (((0:ℝ)) ==. lit 0) = true := by simp only [real_beq, real_lit, e0, decide_true]
  have q4 : (launchInit zLib fgD [10] (exP ⟨103/1000, 0, 0⟩ ⟨-3/5, 0, 4/5⟩ 0)).coef = true := by
    show (!scatfRejects exD [10]) = true
    rw [ex_scatf]; rfl
  have q5 : (launchInit zLib fgD [10] (exP ⟨103/1000, 0, 0⟩ ⟨-3/5, 0, 4/5⟩ 0)).chans = [⟨10, 1, 0, 1/2⟩] := by
    simp [launchInit, amuOf, scatfOf, fgD, zLib]
    norm_num
  have huu := vnorm_unit (⟨-3/5, 0, 4/5⟩ : V3 ℝ) (by unfold dot; norm_num)
  have q3 : (launchInit zLib fgD [10] (exP ⟨103/1000, 0, 0⟩ ⟨-3/5, 0, 4/5⟩ 0)).exitD = ⟨-3/5, 0, 4/5⟩ := by
    show vnorm (vnorm _) = _
    rw [show (exP ⟨103/1000, 0, 0⟩ ⟨-3/5, 0, 4/5⟩ 0).startD = ⟨-3/5, 0, 4/5⟩ from rfl, huu, huu]
  obtain ⟨c, R, hr, hc0, he, hi, hx⟩ := fg_reflect 0 _ rfl q3 q5 q4 rfl rfl
  have q1 : (launchInit zLib fgD [10] (exP ⟨103/1000, 0, 0⟩ ⟨-3/5, 0, 4/5⟩ 0)).startC = ⟨103/1000, 0, 0⟩ := rfl
  refine ⟨finish R, R, ?_, by simp [events, finish, he, hi], by simp [absorption, amuOf, fgD, zLib], ⟨c, hc0, hr⟩, rfl, hx⟩
  unfold launchBody
  simp only [q1, hc, hw, if_true, hz0, Bool.and_true]
  have e1 : (⟨lit 0, lit 0, lit 1⟩ : V3 ℝ) = ⟨0, 0, 1⟩ := by simp
  rw [e1, hr]
  rfl

end Polycap.Acc
