import Verif.Props.TraceProps
import Verif.Props.LaunchProps

/-!
# Every recorded leak event carries one weight per energy (C23, C52)

Holds for every number type: nothing about rounding is used.
-/
namespace Polycap
open CNum

variable {α : Type} [CNum α]

/-- The photon has `N` energies and so has each of its leak events. -/
structure Shaped (N : Nat) (P : Photon α) : Prop where
  chans : P.chans.length = N
  ext : ∀ l ∈ P.ext, l.weight.length = N
  int : ∀ l ∈ P.int, l.weight.length = N

/-- shape and coefficients are kept -/
def Keeps (N : Nat) (P P' : Photon α) : Prop := Shaped N P → Shaped N P' ∧ P'.coef = P.coef

omit [CNum α] in
theorem Keeps.same {N : Nat} {P P' : Photon α} (h1 : P'.chans = P.chans) (h2 : P'.ext = P.ext) (h3 : P'.int = P.int) (h4 : P'.coef = P.coef) :
    Keeps N P P' := fun h => ⟨⟨by rw [h1]; exact h.chans, by rw [h2]; exact h.ext, by rw [h3]; exact h.int⟩, h4⟩

omit [CNum α] in
theorem Keeps.trans {N : Nat} {P Q R : Photon α} (h : Keeps N P Q) (g : Keeps N Q R) : Keeps N P R := fun hp =>
  ⟨(g (h hp).1).1, (g (h hp).1).2.trans (h hp).2⟩

omit [CNum α] in
theorem shaped_snoc {N : Nat} {ls : List (Leak α)} (h : ∀ l ∈ ls, l.weight.length = N) {lk : Leak α} (hk : lk.weight.length = N) :
    ∀ l ∈ ls ++ [lk], l.weight.length = N := by
  intro l hl
  rcases List.mem_append.1 hl with hl | hl
  · exact h l hl
  · simp only [List.mem_singleton] at hl; subst hl; exact hk

omit [CNum α] in
theorem shaped_append {N : Nat} {ls ms : List (Leak α)} (h : ∀ l ∈ ls, l.weight.length = N) (g : ∀ l ∈ ms, l.weight.length = N) :
    ∀ l ∈ ls ++ ms, l.weight.length = N := by
  intro l hl
  rcases List.mem_append.1 hl with hl | hl
  · exact h l hl
  · exact g l hl

theorem reflEnergies_shape (D : Descr α) (norm dir : V3 α) (alfa : α) (leak : Bool) (d : α) : ∀ (cs : List (Chan α)) (E ev : V3 α),
    (reflEnergies D norm dir alfa leak d cs E ev).chans.length = cs.length ∧
    ((reflEnergies D norm dir alfa leak d cs E ev).ok = true → (reflEnergies D norm dir alfa leak d cs E ev).wl.length = cs.length) ∧
    (leak = false → (reflEnergies D norm dir alfa leak d cs E ev).leakFlag = false) := by
  intro cs
  induction cs with
  | nil => intro E ev; simp [reflEnergies]
  | cons c cs ih =>
    intro E ev
    unfold reflEnergies
    simp only
    split
    · simp
    · obtain ⟨i1, i2, i3⟩ := ih (reflPolar c.e D.density c.scatf c.amu norm dir E ev).2.2 (reflPolar c.e D.density c.scatf c.amu norm dir E ev).2.1
      refine ⟨by simp [i1], fun h => by simp [i2 h], fun h => ?_⟩
      rw [i3 h]
      simp [h]

/-- one step of the tracing keeps the shape -/
def TraceShape (N : Nat) (tr : Nat → Photon α → Out (Int × Nat × Photon α)) : Prop :=
  ∀ ix P c ix' P', tr ix P = .ok (c, ix', P') → Keeps N P P'

omit [CNum α] in
theorem traceLoop_shape {N : Nat} {tr : Nat → Photon α → Out (Int × Nat × Photon α)} (htr : TraceShape N tr) :
    ∀ (k : Nat) (iesc : Int) (ix : Nat) (P : Photon α) (x), traceLoop tr k iesc ix P = .ok x → Keeps N P x.2.2 := by
  intro k
  induction k with
  | zero => intro iesc ix P x hx; simp only [traceLoop] at hx; injection hx with hx; subst hx; exact .same rfl rfl rfl rfl
  | succ k ih =>
    intro iesc ix P x hx
    unfold traceLoop at hx
    rw [Out.bind_eq_ok] at hx
    obtain ⟨⟨c, i, Q⟩, hy, hx⟩ := hx
    have h1 := htr _ _ _ _ _ hy
    split at hx
    · injection hx with hx; subst hx; exact h1
    · exact h1.trans (ih _ _ _ _ hx)

theorem recordTemp_shape {N : Nat} (D : Descr α) (P T : Photon α) (iesc : Int) (hT : T.chans.length = N) : Keeps N P (recordTemp D P T iesc) := by
  intro hP
  have hl : ((T.chans.map (·.w)) : List α).length = N := by rw [List.length_map]; exact hT
  unfold recordTemp
  simp only
  split
  · split
    · exact ⟨⟨hP.1, shaped_snoc hP.2 hl, hP.3⟩, rfl⟩
    · split
      · exact ⟨⟨hP.1, hP.2, shaped_snoc hP.3 hl⟩, rfl⟩
      · exact ⟨hP, rfl⟩
  · exact ⟨hP, rfl⟩

theorem reflectLeak_shape {N : Nat} (D : Descr α) (tr) (htr : ∀ q r, TraceShape N (tr q r)) (P : Photon α) (w : Wall α) (wl : List α)
    (iesc c : Int) (P' : Photon α) (hwl : wl.length = N) (h : reflectLeak D tr P w wl iesc = .ok (c, P')) : Keeps N P P' := by
  intro hP
  unfold reflectLeak at h
  simp only at h
  split at h
  · injection h with h; injection h with h1 h2; subst h2
    exact ⟨⟨hP.1, shaped_snoc hP.2 hwl, hP.3⟩, rfl⟩
  split at h
  · injection h with h; injection h with h1 h2; subst h2
    exact ⟨⟨hP.1, hP.2, shaped_snoc hP.3 hwl⟩, rfl⟩
  split at h
  · split at h
    · simp at h
    rename_i T hT
    have hTe : T.ext = [] ∧ T.int = [] := by
      unfold photonNew at hT
      split at hT
      · simp at hT
      split at hT
      · simp at hT
      · injection hT with hT; subst hT; exact ⟨rfl, rfl⟩
    rw [Out.bind_eq_ok] at h
    obtain ⟨x, hx, h⟩ := h
    have hTs : Shaped N (tempPhoton P T w.d wl) := by
      refine ⟨?_, ?_, ?_⟩
      · simp only [tempPhoton, List.length_zipWith, hP.1, hwl, Nat.min_self]
      · intro l hl; simp [tempPhoton, hTe.1] at hl
      · intro l hl; simp [tempPhoton, hTe.2] at hl
    have hL := (traceLoop_shape (htr w.q w.r) _ _ _ _ _ hx hTs).1
    split at h
    · injection h with h; injection h with h1 h2; subst h2
      exact ⟨hP, rfl⟩
    · injection h with h; injection h with h1 h2; subst h2
      have hQ : Keeps N P { P with ext := P.ext ++ x.2.2.ext, int := P.int ++ x.2.2.int } := fun hP =>
        ⟨⟨hP.1, shaped_append hP.2 hL.2, shaped_append hP.3 hL.3⟩, rfl⟩
      exact (hQ.trans (recordTemp_shape D _ _ _ hL.1)) hP
  · injection h with h; injection h with h1 h2; subst h2
    exact ⟨hP, rfl⟩

theorem reflectRest_shape {N : Nat} (D : Descr α) (leak : Bool) (tr) (htr : ∀ q r, TraceShape N (tr q r)) (n : V3 α) (a : α) (P : Photon α)
    (w : Wall α) (c : Int) (P' : Photon α) (h : reflectRest D leak tr n a P w = .ok (c, P')) : Keeps N P P' := by
  intro hP
  unfold reflectRest at h
  simp only at h
  split at h
  · injection h with h; injection h with h1 h2; subst h2; exact ⟨hP, rfl⟩
  split at h
  · simp at h
  obtain ⟨r1, r2, -⟩ := reflEnergies_shape D n P.exitD a leak w.d P.chans P.exitE P.exitE
  generalize reflEnergies D n P.exitD a leak w.d P.chans P.exitE P.exitE = r at *
  rw [hP.1] at r1 r2
  split at h
  · injection h with h; injection h with h1 h2; subst h2
    exact ⟨⟨r1, hP.2, hP.3⟩, rfl⟩
  rename_i hok
  have hok' : r.ok = true := by simpa using hok
  split at h
  · have hK := reflectLeak_shape D tr htr { P with chans := r.chans, exitE := r.ev } w r.wl _ c P' (r2 hok') h
    exact hK (⟨r1, hP.2, hP.3⟩ : Shaped N { P with chans := r.chans, exitE := r.ev })
  · injection h with h; injection h with h1 h2; subst h2
    exact ⟨⟨r1, hP.2, hP.3⟩, rfl⟩

theorem reflectBody_shape {N : Nat} (D : Descr α) (leak : Bool) (fuel : Nat) (tr) (htr : ∀ q r, TraceShape N (tr q r)) (n : V3 α) (P : Photon α)
    (c : Int) (P' : Photon α) (h : reflectBody D leak fuel tr n P = .ok (c, P')) : Keeps N P P' := by
  unfold reflectBody at h
  simp only at h
  split at h
  · injection h with h; injection h with h1 h2; subst h2; exact .same rfl rfl rfl rfl
  rw [Out.bind_eq_ok] at h
  obtain ⟨w, hw, h⟩ := h
  have hl : Keeps N P (renorm leak { P with exitD := vnorm P.exitD }) := .same rfl rfl rfl rfl
  exact hl.trans (reflectRest_shape D leak tr htr _ _ _ w c P' h)

theorem capilTrace_shape {N : Nat} (D : Descr α) (refl : V3 α → Photon α → Out (Int × Photon α))
    (hrefl : ∀ n P c P', refl n P = .ok (c, P') → Keeps N P P') (capx capy : Nat → α) : TraceShape N (capilTrace D refl capx capy) := by
  intro ix P c ix' P' h
  unfold capilTrace at h
  simp only at h
  split at h
  · injection h with h; injection h with h1 h; injection h with h2 h3; subst h3; exact .same rfl rfl rfl rfl
  · injection h with h; injection h with h1 h; injection h with h2 h3; subst h3; exact .same rfl rfl rfl rfl
  · unfold traceHit at h
    simp only at h
    split at h
    · injection h with h; injection h with h1 h; injection h with h2 h3; subst h3; exact .same rfl rfl rfl rfl
    split at h
    · simp at h
    split at h
    · injection h with h; injection h with h1 h; injection h with h2 h3; subst h3; exact .same rfl rfl rfl rfl
    split at h
    · injection h with h; injection h with h1 h; injection h with h2 h3; subst h3; exact .same rfl rfl rfl rfl
    rw [Out.bind_eq_ok] at h
    obtain ⟨⟨rc, R⟩, hR, h⟩ := h
    have hl' : Keeps N P R := by
      refine Keeps.trans ?_ (hrefl _ _ _ _ hR)
      exact .same rfl rfl rfl rfl
    injection h with h
    unfold afterReflect at h
    simp only at h
    split at h
    · injection h with h1 h; injection h with h2 h3; subst h3
      exact hl'.trans (.same rfl rfl rfl rfl)
    split at h
    · injection h with h1 h; injection h with h2 h3; subst h3; exact hl'
    · injection h with h1 h; injection h with h2 h3; subst h3; exact hl'

theorem reflect_shape {N : Nat} (D : Descr α) (leak : Bool) (fuel : Nat) : ∀ (k : Nat) (n : V3 α) (P : Photon α) (c : Int) (P' : Photon α),
    reflect D leak fuel k n P = .ok (c, P') → Keeps N P P' := by
  intro k
  induction k with
  | zero => intro n P c P' h; simp [reflect] at h
  | succ k ih =>
    intro n P c P' h
    exact reflectBody_shape D leak fuel _ (fun q r => capilTrace_shape D _ ih _ _) n P c P' h

theorem trace_shape {N : Nat} (D : Descr α) (leak : Bool) (fuel k : Nat) (capx capy : Nat → α) :
    TraceShape N (trace D leak fuel k capx capy) :=
  capilTrace_shape D _ (reflect_shape D leak fuel k) capx capy

theorem launchInit_shape (lib : Xray α) (D : Descr α) (es : List α) (P : Photon α) : Shaped es.length (launchInit lib D es P) :=
  ⟨by simp [launchInit], by intro l hl; simp [launchInit] at hl, by intro l hl; simp [launchInit] at hl⟩

theorem recordLaunch_leaks {N : Nat} (D : Descr α) (P : Photon α) (iesc : Int) (hP : Shaped N P) :
    (∀ l ∈ (recordLaunch D P iesc).ext, l.weight.length = N) ∧ (∀ l ∈ (recordLaunch D P iesc).int, l.weight.length = N) := by
  have hl : ((P.chans.map (·.w)) : List α).length = N := by rw [List.length_map]; exact hP.1
  unfold recordLaunch
  simp only
  split
  · split
    · exact ⟨shaped_snoc hP.2 hl, hP.3⟩
    · split
      · exact ⟨hP.2, shaped_snoc hP.3 hl⟩
      · exact ⟨hP.2, hP.3⟩
  · exact ⟨hP.2, hP.3⟩

theorem launchWall_shape {N : Nat} (D : Descr α) (leak : Bool) (fuel k : Nat) (P : Photon α) (w : Wall α) (c : Int) (o : WOut α) (P' : Photon α)
    (hP : Shaped N P) (h : launchWall D leak fuel k P w = .ok (c, o, P')) :
    (∀ l ∈ P'.ext, l.weight.length = N) ∧ (∀ l ∈ P'.int, l.weight.length = N) := by
  unfold launchWall at h
  simp only at h
  split at h
  · injection h with h; injection h with h1 h; injection h with h2 h3; subst h3
    exact ⟨hP.2, hP.3⟩
  split at h
  · simp at h
  have hl : (((P.chans.map (attenuate w.d)).map (·.w)) : List α).length = N := by rw [List.length_map, List.length_map]; exact hP.1
  split at h
  · injection h with h; injection h with h1 h; injection h with h2 h3; subst h3
    exact ⟨shaped_snoc hP.2 hl, hP.3⟩
  split at h
  · injection h with h; injection h with h1 h; injection h with h2 h3; subst h3
    exact ⟨hP.2, shaped_snoc hP.3 hl⟩
  rw [Out.bind_eq_ok] at h
  obtain ⟨x, hx, h⟩ := h
  have hL := (traceLoop_shape (N := N) (trace_shape D leak fuel k _ _) _ _ _ _ _ hx ⟨by simp [hP.1], hP.2, hP.3⟩).1
  split at h
  · injection h with h; injection h with h1 h; injection h with h2 h3; subst h3
    exact ⟨hL.2, hL.3⟩
  · injection h with h; injection h with h1 h; injection h with h2 h3; subst h3
    exact recordLaunch_leaks D x.2.2 x.1 hL

/-- **C23, C52**: after a launch every recorded leak event has exactly one weight per energy. -/
theorem launch_leaks_shape (lib : Xray α) (D : Descr α) (leak : Bool) (fuel k : Nat) (P : Photon α) (es : List α)
    (hes : es ≠ []) (hb : ∀ e ∈ es, energyBad e = false) (c : Int) (o : WOut α) (P' : Photon α)
    (h : launch lib (some D) leak fuel k (some P) (some es) true = .ok (c, o, some P')) :
    (∀ l ∈ P'.ext, l.weight.length = es.length) ∧ (∀ l ∈ P'.int, l.weight.length = es.length) := by
  have hg : (es.isEmpty || es.any energyBad || !true) = false := by
    have h1 : es.isEmpty = false := by cases es <;> simp_all
    have h2 : es.any energyBad = false := by simpa [List.any_eq_false] using hb
    simp [h1, h2]
  unfold launch at h
  simp only at h
  rw [hg] at h
  simp only [Bool.false_eq_true, if_false] at h
  rw [Out.bind_eq_ok] at h
  obtain ⟨⟨c', o', Q⟩, hx, h⟩ := h
  injection h with h; injection h with h1 h; injection h with h2 h3; injection h3 with h3
  simp only at h3
  subst h3
  have hI := launchInit_shape lib D es P
  cases launchBody_ended _ _ _ _ _ _ _ _ _ _ hx with
  | outside => exact ⟨hI.2, hI.3⟩
  | glass => exact ⟨hI.2, hI.3⟩
  | front qr _ _ _ _ x hy =>
    have := (reflect_shape (N := es.length) D leak fuel k _ _ x.1 x.2 hy hI).1
    exact ⟨this.2, this.3⟩
  | within qr _ _ _ _ _ w _ c o P' hy => 
    have hI' : Shaped es.length { launchInit lib D es P with exitD := vnorm (launchInit lib D es P).exitD } := ⟨hI.1, hI.2, hI.3⟩
    exact launchWall_shape D leak fuel k _ w _ _ _ hI' hy
  | inside qr _ _ c o P' hy =>
    obtain ⟨iesc, ix, Q', ht, -, -, -, -, -, rfl⟩ := launchInside_inv _ _ _ _ _ _ _ _ _ hy
    have := (traceLoop_shape (N := es.length) (trace_shape D leak fuel k _ _) _ _ _ _ _ ht hI).1
    exact ⟨this.2, this.3⟩

end Polycap
