import Verif.Props.PathProps
import Verif.Props.WeightProps
import Verif.Props.ScatfProps
import Verif.Props.Hexagon

/-!
# `polycap_photon_launch`: C20, C22, C23, C24, C42, C43 for whole launches

Exact reals unless the number type is a variable.
-/
namespace Polycap
open CNum

/-! ## Inversion: the ways a launch can end -/

section generic
variable {α : Type} [CNum α]

/-- The arguments a launch refuses: no photon, no energies, an energy outside [1,100], nowhere to put the
weights, no description. -/
def ArgsBad (D : Option (Descr α)) (P : Option (Photon α)) (energies : Option (List α)) (wptr : Bool) : Prop :=
  P = none ∨ energies = none ∨ energies = some [] ∨ (∃ es, energies = some es ∧ ∃ e ∈ es, energyBad e = true) ∨
    wptr = false ∨ D = none

/-- **C24**, invalid arguments: -1, weights untouched, the photon keeps everything but its old leak records. -/
theorem launch_invalid (lib : Xray α) (D : Option (Descr α)) (leak : Bool) (fuel k : Nat) (P : Option (Photon α))
    (energies : Option (List α)) (wptr : Bool) (h : ArgsBad D P energies wptr) :
    ∃ P', launch lib D leak fuel k P energies wptr = .ok (-1, .untouched, P') ∧ P'.isSome = P.isSome ∧
      ∀ Q Q', P = some Q → P' = some Q' → Q' = { Q with ext := Q'.ext, int := Q'.int } := by
  cases P with
  | none => exact ⟨none, rfl, rfl, by simp⟩
  | some P =>
    cases energies with
    | none => exact ⟨some P, rfl, rfl, by simp⟩
    | some es =>
      by_cases hb : (es.isEmpty || es.any energyBad || !wptr) = true
      · refine ⟨some P, ?_, rfl, by simp⟩
        simp only [launch, hb, if_true]
      · have hb' : (es.isEmpty || es.any energyBad || !wptr) = false := by simpa using hb
        cases D with
        | none =>
          refine ⟨some { P with ext := [], int := [] }, ?_, rfl, by simp⟩
          simp only [launch, hb', Bool.false_eq_true, if_false]
        | some D =>
          exfalso
          simp only [Bool.or_eq_false_iff, Bool.not_eq_false'] at hb'
          obtain ⟨⟨h1, h2⟩, h3⟩ := hb'
          rcases h with h | h | h | ⟨es', h, e, he, hbad⟩ | h | h
          · simp at h
          · simp at h
          · injection h with h; subst h; simp at h1
          · injection h with h; subst h
            rw [List.any_eq_false] at h2
            exact h2 e he hbad
          · rw [h] at h3; simp at h3
          · simp at h

/-- with valid arguments a launch is what follows the guards -/
theorem launch_valid (lib : Xray α) (D : Option (Descr α)) (leak : Bool) (fuel k : Nat) (P : Option (Photon α))
    (energies : Option (List α)) (wptr : Bool) (h : ¬ ArgsBad D P energies wptr) :
    ∃ D' P' es, D = some D' ∧ P = some P' ∧ energies = some es ∧ es ≠ [] ∧ (∀ e ∈ es, energyBad e = false) ∧ wptr = true ∧
      launch lib D leak fuel k P energies wptr =
        (do let x ← launchBody lib D' leak fuel k P' es; .ok (x.1, x.2.1, some x.2.2)) := by
  unfold ArgsBad at h
  simp only [not_or] at h
  obtain ⟨h1, h2, h3, h4, h5, h6⟩ := h
  obtain ⟨P', rfl⟩ := Option.ne_none_iff_exists'.mp h1
  obtain ⟨es, rfl⟩ := Option.ne_none_iff_exists'.mp h2
  obtain ⟨D', rfl⟩ := Option.ne_none_iff_exists'.mp h6
  have h5' : wptr = true := by simpa using h5
  have hne : es ≠ [] := by rintro rfl; exact h3 rfl
  have hgood : ∀ e ∈ es, energyBad e = false := by
    intro e he
    by_contra hb
    exact h4 ⟨es, rfl, e, he, by simpa using hb⟩
  refine ⟨D', P', es, rfl, rfl, rfl, hne, hgood, h5', ?_⟩
  have hb : (es.isEmpty || es.any energyBad || !wptr) = false := by
    simp only [Bool.or_eq_false_iff, List.isEmpty_eq_false_iff, h5', Bool.not_true, and_true]
    refine ⟨hne, ?_⟩
    rw [List.any_eq_false]
    intro e he; rw [hgood e he]; simp
  simp only [launch, hb, Bool.false_eq_true, if_false]

/-- What is left of a launch that passed the guards, by the way it ended. -/
inductive Ended (lib : Xray α) (D : Descr α) (leak : Bool) (fuel k : Nat) (P : Photon α) (es : List α) :
    Int → WOut α → Photon α → Prop
  /-- start position outside the optic -/
  | outside (h : launchCap D P.startC = none) : Ended lib D leak fuel k P es (-2) .uninit (finish (launchInit lib D es P))
  /-- in glass, no leak calculation (or z < 0) -/
  | glass (qr) (h : launchCap D P.startC = some qr) (hw : startsInWall D qr P.startC = true)
      (hl : leak = false ∨ ((P.startC.z ==. lit 0) = false ∧ (P.startC.z >. lit 0) = false)) :
      Ended lib D leak fuel k P es 2 .uninit (finish (launchInit lib D es P))
  /-- in glass at the entrance -/
  | front (qr) (h : launchCap D P.startC = some qr) (hw : startsInWall D qr P.startC = true) (hl : leak = true)
      (hz : (P.startC.z ==. lit 0) = true) (x : Int × Photon α)
      (hx : reflect D leak fuel k ⟨lit 0, lit 0, lit 1⟩ (launchInit lib D es P) = .ok x) :
      Ended lib D leak fuel k P es 2 .uninit (finish x.2)
  /-- in glass further downstream, with leak calculation -/
  | within (qr) (h : launchCap D P.startC = some qr) (hw : startsInWall D qr P.startC = true) (hl : leak = true)
      (hz : (P.startC.z ==. lit 0) = false) (hz' : (P.startC.z >. lit 0) = true) (w : Wall α)
      (hx : traceWall D fuel P.startC (vnorm (launchInit lib D es P).exitD) = .ok w) (c : Int) (o : WOut α) (P' : Photon α)
      (hy : launchWall D leak fuel k
        { launchInit lib D es P with exitD := vnorm (launchInit lib D es P).exitD } w = .ok (c, o, P')) :
      Ended lib D leak fuel k P es c o P'
  /-- in a capillary -/
  | inside (qr) (h : launchCap D P.startC = some qr) (hw : startsInWall D qr P.startC = false) (c : Int) (o : WOut α)
      (P' : Photon α) (hx : launchInside D leak fuel k qr (launchInit lib D es P) = .ok (c, o, P')) :
      Ended lib D leak fuel k P es c o P'

theorem launchBody_ended (lib : Xray α) (D : Descr α) (leak : Bool) (fuel k : Nat) (P : Photon α) (es : List α) (c : Int)
    (o : WOut α) (P' : Photon α) (h : launchBody lib D leak fuel k P es = .ok (c, o, P')) :
    Ended lib D leak fuel k P es c o P' := by
  unfold launchBody at h
  simp only at h
  have hs : (launchInit lib D es P).startC = P.startC := rfl
  rw [hs] at h
  split at h
  · rename_i hc
    injection h with h; injection h with h1 h; injection h with h2 h3; subst h1 h2 h3
    exact .outside hc
  · rename_i qr hc
    split at h
    · rename_i hw
      split at h
      · rename_i hz
        simp only [Bool.and_eq_true] at hz
        rw [Out.bind_eq_ok] at h
        obtain ⟨x, hx, h⟩ := h
        injection h with h; injection h with h1 h; injection h with h2 h3; subst h1 h2 h3
        exact .front qr hc hw hz.1 hz.2 x hx
      · rename_i hz
        split at h
        · rename_i hz'
          simp only [Bool.and_eq_true] at hz hz'
          rw [Out.bind_eq_ok] at h
          obtain ⟨w, hx, h⟩ := h
          refine .within qr hc hw hz'.1 ?_ hz'.2 w hx c o P' h
          by_contra hh
          exact hz ⟨hz'.1, by simpa using hh⟩
        · rename_i hz'
          injection h with h; injection h with h1 h; injection h with h2 h3; subst h1 h2 h3
          refine .glass qr hc hw ?_
          cases leak
          · exact Or.inl rfl
          · right; simpa using And.intro hz hz'
    · rename_i hw
      exact .inside qr hc (by simpa using hw) c o P' h

/-- the codes of the tracing function -/
theorem trace_codes (D : Descr α) (leak : Bool) (fuel k : Nat) (capx capy : Nat → α) (ix : Nat) (P : Photon α) (c : Int)
    (ix' : Nat) (P' : Photon α) (h : trace D leak fuel k capx capy ix P = .ok (c, ix', P')) :
    c = -3 ∨ c = -2 ∨ c = -1 ∨ c = 0 ∨ c = 1 := by
  unfold trace capilTrace at h
  simp only at h
  split at h
  · rename_i code hs
    injection h with h; injection h with h1 h; subst h1
    rcases traceSearch_ret D capx capy _ _ _ _ _ _ hs with h | h | h <;> simp [h]
  · injection h with h; injection h with h1 h; simp [← h1]
  · unfold traceHit at h
    simp only at h
    split at h
    · injection h with h; injection h with h1 h; simp [← h1]
    split at h
    · simp at h
    split at h
    · injection h with h; injection h with h1 h; simp [← h1]
    split at h
    · injection h with h; injection h with h1 h; simp [← h1]
    rw [Out.bind_eq_ok] at h
    obtain ⟨⟨rc, R⟩, hR, h⟩ := h
    obtain ⟨-, -, hc⟩ := reflect_frame _ _ _ _ _ _ _ _ hR
    injection h with h
    unfold afterReflect at h
    simp only at h
    split at h
    · injection h with h1 h; simp [← h1]
    split at h
    · injection h with h1 h; simp [← h1]
    · injection h with h1 h; omega

theorem traceLoop_codes (D : Descr α) (leak : Bool) (fuel kk : Nat) (capx capy : Nat → α) :
    ∀ (k : Nat) (iesc : Int) (ix : Nat) (P : Photon α) (c : Int) (ix' : Nat) (P' : Photon α),
      (k = 0 → iesc = 0) → traceLoop (trace D leak fuel kk capx capy) k iesc ix P = .ok (c, ix', P') →
      c = -3 ∨ c = -2 ∨ c = -1 ∨ c = 0 ∨ c = 1 := by
  have gen : ∀ (k : Nat) (iesc : Int) (ix : Nat) (P : Photon α) (c : Int) (ix' : Nat) (P' : Photon α),
      (iesc = 0 ∨ iesc = 1) → traceLoop (trace D leak fuel kk capx capy) k iesc ix P = .ok (c, ix', P') →
      c = -3 ∨ c = -2 ∨ c = -1 ∨ c = 0 ∨ c = 1 := by
    intro k
    induction k with
    | zero =>
      intro iesc ix P c ix' P' hi h
      simp only [traceLoop] at h
      injection h with h; injection h with h1 h
      omega
    | succ k ih =>
      intro iesc ix P c ix' P' _ h
      unfold traceLoop at h
      rw [Out.bind_eq_ok] at h
      obtain ⟨⟨c1, ix1, P1⟩, h1, h⟩ := h
      simp only at h
      split at h
      · injection h with h; injection h with h2 h
        rw [← h2]; exact trace_codes _ _ _ _ _ _ _ _ _ _ _ h1
      · rename_i hc
        exact ih _ _ _ _ _ _ (Or.inr (by simpa using hc)) h
  intro k iesc ix P c ix' P' hk h
  cases k with
  | zero => exact gen 0 iesc ix P c ix' P' (Or.inl (hk rfl)) h
  | succ k =>
    refine gen (k + 1) 0 ix P c ix' P' (Or.inl rfl) ?_
    simpa only [traceLoop] using h

/-- all ends of a launch in glass: -1 or 1, and the weights array is never written -/
theorem launchWall_codes (D : Descr α) (leak : Bool) (fuel k : Nat) (P : Photon α) (w : Wall α) (c : Int) (o : WOut α)
    (P' : Photon α) (hy : launchWall D leak fuel k P w = .ok (c, o, P')) : (c = -1 ∨ c = 1) ∧ o = .uninit := by
  unfold launchWall at hy
  simp only at hy
  split at hy
  · injection hy with hy; injection hy with h1 hy; injection hy with h2 hy; simp [← h1, ← h2]
  split at hy
  · simp at hy
  split at hy
  · injection hy with hy; injection hy with h1 hy; injection hy with h2 hy; simp [← h1, ← h2]
  split at hy
  · injection hy with hy; injection hy with h1 hy; injection hy with h2 hy; simp [← h1, ← h2]
  rw [Out.bind_eq_ok] at hy
  obtain ⟨x, -, hy⟩ := hy
  split at hy
  · injection hy with hy; injection hy with h1 hy; injection hy with h2 hy; simp [← h1, ← h2]
  · injection hy with hy; injection hy with h1 hy; injection hy with h2 hy; simp [← h1, ← h2]

/-- a launch in a capillary is a run of the tracing loop -/
theorem launchInside_inv (D : Descr α) (leak : Bool) (fuel k : Nat) (qr : Int × Int) (P : Photon α) (c : Int) (o : WOut α)
    (P' : Photon α) (hy : launchInside D leak fuel k qr P = .ok (c, o, P')) :
    ∃ (iesc : Int) (ix : Nat) (Q : Photon α),
      traceLoop (trace D leak fuel k (axX D qr) (axY D qr)) (D.prof.nmax + 1) 0
        (segIdFrom D.prof.z 0 P.startC.z (D.prof.nmax + 1)) P = .ok (iesc, ix, Q) ∧
      (iesc = -3 ∨ iesc = -2 ∨ iesc = -1 ∨ iesc = 0 ∨ iesc = 1) ∧
      ((iesc = -1 ∨ iesc = -3) ↔ c = -1) ∧ (iesc = 0 ↔ c = 0) ∧ ((iesc = 1 ∨ iesc = -2) ↔ c = 1) ∧
      o = .filled (Q.chans.map (·.w)) ∧ P' = finish Q := by
  unfold launchInside at hy
  rw [Out.bind_eq_ok] at hy
  obtain ⟨⟨iesc, ix, Q⟩, hx, hy⟩ := hy
  have hc := traceLoop_codes D leak fuel k _ _ _ _ _ _ _ _ _ (by simp) hx
  injection hy with hy; injection hy with h1 hy; injection hy with h2 h3
  simp only at h1 h2 h3
  refine ⟨iesc, ix, Q, hx, hc, ?_, ?_, ?_, h2.symm, h3.symm⟩ <;>
    (rw [← h1]; rcases hc with h | h | h | h | h <;> simp [h])

/-- **C24**, the set of return values. -/
theorem launch_codes (lib : Xray α) (D : Option (Descr α)) (leak : Bool) (fuel k : Nat) (P : Option (Photon α))
    (energies : Option (List α)) (wptr : Bool) (c : Int) (o : WOut α) (P' : Option (Photon α))
    (h : launch lib D leak fuel k P energies wptr = .ok (c, o, P')) :
    c = -2 ∨ c = -1 ∨ c = 0 ∨ c = 1 ∨ c = 2 := by
  by_cases hb : ArgsBad D P energies wptr
  · obtain ⟨P'', h', -⟩ := launch_invalid lib D leak fuel k P energies wptr hb
    rw [h'] at h
    injection h with h; injection h with h1 h; simp [← h1]
  · obtain ⟨D', P'', es, rfl, rfl, rfl, -, -, -, h'⟩ := launch_valid lib D leak fuel k P energies wptr hb
    rw [h', Out.bind_eq_ok] at h
    obtain ⟨⟨c', o', Q⟩, hx, h⟩ := h
    injection h with h; injection h with h1 h; simp only at h1; subst h1
    cases launchBody_ended _ _ _ _ _ _ _ _ _ _ hx with
    | outside => simp
    | glass => simp
    | front => simp
    | within qr _ _ _ _ _ w _ c o P' hy =>
      have := launchWall_codes _ _ _ _ _ _ _ _ _ hy
      omega
    | inside qr _ _ c o P' hy =>
      obtain ⟨iesc, ix, Q, -, hc, k1, k2, k3, -⟩ := launchInside_inv _ _ _ _ _ _ _ _ _ hy
      omega

/-! ## Codes 0 and 1 and the weight threshold -/

/-- an energy channel still counts -/
def alive (c : Chan α) : Prop := (c.w >=. lit (1/10^4)) = true

theorem reflEnergies_flag (D : Descr α) (norm dir : V3 α) (alfa : α) (leak : Bool) (d : α) :
    ∀ (cs : List (Chan α)) (E ev : V3 α), (reflEnergies D norm dir alfa leak d cs E ev).ok = true →
      ((reflEnergies D norm dir alfa leak d cs E ev).weightFlag = true ↔
        ∃ c ∈ (reflEnergies D norm dir alfa leak d cs E ev).chans, alive c) := by
  intro cs
  induction cs with
  | nil => intro E ev _; simp [reflEnergies]
  | cons c cs ih =>
    intro E ev h
    unfold reflEnergies at h ⊢
    simp only at h ⊢
    split at h
    · simp at h
    · rename_i hr
      rw [if_neg hr]
      simp only at h ⊢
      rw [Bool.or_eq_true, ih _ _ h]
      simp only [List.mem_cons, exists_eq_or_imp, alive]

theorem reflectRest_flag (D : Descr α) (leak : Bool) (tr) (n : V3 α) (a : α) (P : Photon α) (w : Wall α) (c : Int)
    (P' : Photon α) (h : reflectRest D leak tr n a P w = .ok (c, P')) :
    (c = 1 → ∃ ch ∈ P'.chans, alive ch) ∧ (c = 0 → ∀ ch ∈ P'.chans, ¬ alive ch) := by
  unfold reflectRest at h
  simp only at h
  split at h
  · injection h with h; injection h with h1 h2; subst h1; simp
  split at h
  · simp at h
  split at h
  · injection h with h; injection h with h1 h2; subst h1; simp
  rename_i hok
  have hf := reflEnergies_flag D n P.exitD a leak w.d P.chans P.exitE P.exitE (by simpa using hok)
  have key : ∀ c : Int, c = (if (reflEnergies D n P.exitD a leak w.d P.chans P.exitE P.exitE).weightFlag then 1 else 0) →
      (c = 1 → ∃ ch ∈ (reflEnergies D n P.exitD a leak w.d P.chans P.exitE P.exitE).chans, alive ch) ∧
      (c = 0 → ∀ ch ∈ (reflEnergies D n P.exitD a leak w.d P.chans P.exitE P.exitE).chans, ¬ alive ch) := by
    intro c hc
    split at hc
    · rename_i hw
      subst hc
      exact ⟨fun _ => hf.mp hw, by simp⟩
    · rename_i hw
      subst hc
      refine ⟨by simp, fun _ ch hch hal => hw (hf.mpr ⟨ch, hch, hal⟩)⟩
  split at h
  · obtain ⟨-, -, -, hc, -, hd⟩ := reflectLeak_frame _ _ _ _ _ _ _ _ h
    rcases hd with hd | hd
    · rw [hc]; exact key c hd
    · subst hd; simp
  · injection h with h; injection h with h1 h2; subst h2
    exact key c h1.symm

theorem reflect_flag (D : Descr α) (leak : Bool) (fuel k : Nat) (n : V3 α) (P : Photon α) (c : Int)
    (P' : Photon α) (h : reflect D leak fuel k n P = .ok (c, P')) :
    (c = 1 → ∃ ch ∈ P'.chans, alive ch) ∧ (c = 0 → ∀ ch ∈ P'.chans, ¬ alive ch) := by
  cases k with
  | zero => simp [reflect] at h
  | succ k =>
    unfold reflect reflectBody at h
    simp only at h
    split at h
    · injection h with h; injection h with h1 h2; subst h1; simp
    rw [Out.bind_eq_ok] at h
    obtain ⟨w, -, h⟩ := h
    exact reflectRest_flag _ _ _ _ _ _ _ _ _ h

theorem trace_flag (D : Descr α) (leak : Bool) (fuel k : Nat) (capx capy : Nat → α) (ix : Nat) (P : Photon α) (c : Int)
    (ix' : Nat) (P' : Photon α) (h : trace D leak fuel k capx capy ix P = .ok (c, ix', P')) :
    (c = 1 → ∃ ch ∈ P'.chans, alive ch) ∧ (c = 0 → ∀ ch ∈ P'.chans, ¬ alive ch) ∧ (c = -2 → P'.chans = P.chans) := by
  unfold trace capilTrace at h
  simp only at h
  split at h
  · rename_i code hs
    injection h with h; injection h with h1 h; injection h with h2 h3; subst h1 h3
    have := traceSearch_ret D capx capy _ _ _ _ _ _ hs
    exact ⟨by omega, by omega, fun _ => rfl⟩
  · injection h with h; injection h with h1 h; injection h with h2 h3; subst h1 h3; simp
  · unfold traceHit at h
    simp only at h
    split at h
    · injection h with h; injection h with h1 h; subst h1; simp
    split at h
    · simp at h
    split at h
    · injection h with h; injection h with h1 h; subst h1; simp
    split at h
    · injection h with h; injection h with h1 h; subst h1; simp
    rw [Out.bind_eq_ok] at h
    obtain ⟨⟨rc, R⟩, hR, h⟩ := h
    have hf := reflect_flag _ _ _ _ _ _ _ _ hR
    have hc := (reflect_frame _ _ _ _ _ _ _ _ hR).2.2
    injection h with h
    unfold afterReflect at h
    simp only at h
    split at h
    · rename_i h1'
      injection h with h1 h; injection h with h2 h3; subst h1 h3; simpa using hf.1 h1'
    split at h
    · injection h with h1 h; subst h1; simp
    · injection h with h1 h; injection h with h2 h3; subst h1 h3
      exact ⟨hf.1, hf.2, fun _ => by omega⟩

theorem traceLoop_flag (D : Descr α) (leak : Bool) (fuel kk : Nat) (capx capy : Nat → α) :
    ∀ (k : Nat) (iesc : Int) (ix : Nat) (P : Photon α) (c : Int) (ix' : Nat) (P' : Photon α),
      (∃ ch ∈ P.chans, alive ch) → iesc ≠ 0 ∨ 0 < k → traceLoop (trace D leak fuel kk capx capy) k iesc ix P = .ok (c, ix', P') →
      (c = 0 → ∀ ch ∈ P'.chans, ¬ alive ch) ∧ (c = 1 ∨ c = -2 → ∃ ch ∈ P'.chans, alive ch) := by
  intro k
  induction k with
  | zero =>
    intro iesc ix P c ix' P' ha hi h
    simp only [traceLoop] at h
    injection h with h; injection h with h1 h; injection h with h2 h3; subst h1 h3
    exact ⟨fun h => by omega, fun _ => ha⟩
  | succ k ih =>
    intro iesc ix P c ix' P' ha _ h
    unfold traceLoop at h
    rw [Out.bind_eq_ok] at h
    obtain ⟨⟨c1, ix1, P1⟩, h1, h⟩ := h
    simp only at h
    obtain ⟨f1, f2, f3⟩ := trace_flag _ _ _ _ _ _ _ _ _ _ _ h1
    split at h
    · rename_i hne
      injection h with h; injection h with h2 h; injection h with h3 h4; subst h2 h4
      refine ⟨f2, fun hc => ?_⟩
      rcases hc with hc | hc
      · exact f1 hc
      · rw [f3 hc]; exact ha
    · rename_i hne
      have hne : c1 = 1 := by simpa using hne
      exact ih _ _ _ _ _ _ (f1 hne) (by left; omega) h

end generic

/-! ## C24 over the reals: what the codes mean -/

/-- `v` at height `z`, by linear interpolation in the segment of the profile that contains `z` -/
def ValueAt (p : Profile ℝ) (v : Nat → ℝ) (z r : ℝ) : Prop :=
  ∃ i < p.nmax, p.z i ≤ z ∧ z ≤ p.z (i + 1) ∧ r = linAt (p.z i) (p.z (i + 1)) (v i) (v (i + 1)) z

/-- a profile with at least two points, starting at 0, strictly increasing -/
structure Grid (p : Profile ℝ) : Prop where
  two : 1 ≤ p.nmax
  start : p.z 0 = 0
  inc : ∀ i < p.nmax, p.z i < p.z (i + 1)

theorem linAt_interp (z0 z1 v0 v1 z : ℝ) : interp z0 z1 v0 v1 z = linAt z0 z1 v0 v1 z := by
  simp only [interp, linAt, real_add, real_mul, real_sub, real_div]; ring

theorem strict_of_step {z : Nat → ℝ} {n : Nat} (hz : ∀ i < n, z i < z (i + 1)) {i j : Nat} (hij : i < j) (hj : j ≤ n) : z i < z j :=
  lt_of_lt_of_le (hz i (by omega)) (mono_of_step hz hij hj)

/-- interpolated values do not depend on the choice of the segment -/
theorem ValueAt.unique {p : Profile ℝ} (g : Grid p) {v : Nat → ℝ} {z r r' : ℝ} (h : ValueAt p v z r) (h' : ValueAt p v z r') :
    r = r' := by
  obtain ⟨i, hi, a, b, rfl⟩ := h
  obtain ⟨j, hj, a', b', rfl⟩ := h'
  have key : ∀ i j, i < p.nmax → j < p.nmax → i < j → p.z i ≤ z → z ≤ p.z (i + 1) → p.z j ≤ z → z ≤ p.z (j + 1) →
      linAt (p.z i) (p.z (i + 1)) (v i) (v (i + 1)) z = linAt (p.z j) (p.z (j + 1)) (v j) (v (j + 1)) z := by
    intro i j hi hj hij a b a' b'
    have : i + 1 = j := by
      by_contra hne
      have : p.z (i + 1) < p.z j := strict_of_step g.inc (by omega) (by omega)
      linarith
    subst this
    have hz : z = p.z (i + 1) := le_antisymm b a'
    have h1 := g.inc i hi
    unfold linAt
    rw [hz, div_self (by linarith), sub_self, zero_div]
    ring
  rcases lt_trichotomy i j with h | h | h
  · exact key i j hi hj h a b a' b'
  · subst h; rfl
  · exact (key j i hj hi h a' b' a b).symm

theorem launchSeg_ok {p : Profile ℝ} (g : Grid p) {z : ℝ} (h0 : 0 ≤ z) (h1 : z ≤ p.z p.nmax) :
    launchSeg p z < p.nmax ∧ p.z (launchSeg p z) ≤ z ∧ z ≤ p.z (launchSeg p z + 1) := by
  have e0 : ((0:ℚ):ℝ) = 0 := by norm_num
  unfold launchSeg
  simp only [gt, real_lt, real_lit, e0, decide_eq_true_eq]
  split
  · exact segment_index_correct p.z p.nmax 0 g.two z (by rw [g.start]; exact h0) h1
  · have hz : z = 0 := by linarith
    have := g.inc 0 g.two
    rw [hz, g.start] at *
    exact ⟨g.two, le_refl _, this.le⟩

theorem launchExt_value {p : Profile ℝ} (g : Grid p) {z : ℝ} (h0 : 0 ≤ z) (h1 : z ≤ p.z p.nmax) :
    ValueAt p p.ext z (launchExt p z) := by
  obtain ⟨a, b, c⟩ := launchSeg_ok g h0 h1
  refine ⟨_, a, b, c, ?_⟩
  unfold launchExt
  simp only
  rw [(interp_variants _ _ _ _ _ (g.inc _ a)).1, linAt_interp]

theorem atStart_value {p : Profile ℝ} (g : Grid p) (v : Nat → ℝ) {z : ℝ} (h0 : 0 ≤ z) (h1 : z ≤ p.z p.nmax) :
    ValueAt p v z (atStart p v z) := by
  have e0 : ((0:ℚ):ℝ) = 0 := by norm_num
  obtain ⟨a, b, c⟩ := launchSeg_ok g h0 h1
  unfold atStart
  simp only [gt, real_lt, real_lit, e0, decide_eq_true_eq]
  split
  · refine ⟨_, a, b, c, ?_⟩
    unfold interpAt; rw [linAt_interp]
  · have hz : z = 0 := by linarith
    subst hz
    refine ⟨0, g.two, by rw [g.start], ?_, ?_⟩
    · have := g.inc 0 g.two; rw [g.start] at this; exact this.le
    · unfold linAt; rw [g.start, sub_self, zero_div]; ring

/-- Start position outside the optic of radius `R` (at that height): outside the disc for up to 3
capillaries (which count as a monocapillary), outside the hexagon otherwise. -/
def Outside (n_cap : Int) (R : ℝ) (c : V3 ℝ) : Prop :=
  if n_cap ≤ 3 then R < Real.sqrt (c.x ^ 2 + c.y ^ 2) else ¬ InHex R c.x c.y

theorem launchCap_none {D : Descr ℝ} (hn : 1 ≤ D.n_cap) {c : V3 ℝ} (hR : 0 < launchExt D.prof c.z) :
    launchCap D c = none ↔ Outside D.n_cap (launchExt D.prof c.z) c := by
  unfold launchCap Outside
  simp only [← nShells_zero_iff D.n_cap hn]
  have hsq : c.x *. c.x +. c.y *. c.y = c.x ^ 2 + c.y ^ 2 := by simp only [real_mul, real_add]; ring
  split
  · simp only [hsq, real_sqrt, gt, real_lt, decide_eq_true_eq]
    split <;> simp_all
  · obtain ⟨b1, b2, b3⟩ := boundary_spec (launchExt D.prof c.z) c.x c.y
    by_cases h : InHex (launchExt D.prof c.z) c.x c.y
    · simp [b2 hR h, h]
    · simp [b3 hR h, h]

theorem launchCap_some {D : Descr ℝ} {c : V3 ℝ} {qr : Int × Int} (h : launchCap D c = some qr) :
    (nShells (α := ℝ) D.n_cap = 0 ∧ qr = (0, 0)) ∨
    (nShells (α := ℝ) D.n_cap ≠ 0 ∧ qr = hexRound (nShells (α := ℝ) D.n_cap) (launchExt D.prof c.z) c.x c.y) := by
  unfold launchCap at h
  simp only at h
  split at h
  · rename_i hn
    split at h
    · simp at h
    · injection h with h; exact Or.inl ⟨hn, h.symm⟩
  · rename_i hn
    split at h
    · simp at h
    · injection h with h; exact Or.inr ⟨hn, h.symm⟩

/-- **C24**, -2.  With valid arguments, a start position between the two ends of the optic (where its radius
`R` is positive): -2 is returned exactly when the position is outside the optic. -/
theorem launch_outside_iff (lib : Xray ℝ) (D : Descr ℝ) (leak : Bool) (fuel k : Nat) (P : Photon ℝ) (es : List ℝ)
    (hes : es ≠ []) (hb : ∀ e ∈ es, 1 ≤ e ∧ e ≤ 100) (g : Grid D.prof) (hn : 1 ≤ D.n_cap)
    (h0 : 0 ≤ P.startC.z) (h1 : P.startC.z ≤ D.prof.z D.prof.nmax) (R : ℝ) (hR : ValueAt D.prof D.prof.ext P.startC.z R)
    (hpos : 0 < R) (c : Int) (o : WOut ℝ) (P' : Option (Photon ℝ))
    (h : launch lib (some D) leak fuel k (some P) (some es) true = .ok (c, o, P')) :
    c = -2 ↔ Outside D.n_cap R P.startC := by
  have hR' : launchExt D.prof P.startC.z = R := (launchExt_value g h0 h1).unique g hR
  rw [← hR', ← launchCap_none hn (by rw [hR']; exact hpos)]
  have hb' : ¬ ArgsBad (some D) (some P) (some es) true := by
    rintro (h | h | h | ⟨es', h, e, he, hbad⟩ | h | h)
    · simp at h
    · simp at h
    · exact hes (by simpa using h)
    · injection h with h; subst h
      rw [(energyBad_false e).mpr (hb e he)] at hbad; simp at hbad
    · simp at h
    · simp at h
  obtain ⟨D', P'', es', e1, e2, e3, -, -, -, h'⟩ := launch_valid lib (some D) leak fuel k (some P) (some es) true hb'
  injection e1 with e1; injection e2 with e2; injection e3 with e3; subst e1 e2 e3
  rw [h', Out.bind_eq_ok] at h
  obtain ⟨⟨c', o', Q⟩, hx, h⟩ := h
  injection h with h; injection h with h2 h; simp only at h2; subst h2
  cases launchBody_ended _ _ _ _ _ _ _ _ _ _ hx with
  | outside hc => simp [hc]
  | glass qr hc => simp [hc]
  | front qr hc => simp [hc]
  | within qr hc _ _ _ _ w _ c o P' hy =>
    have := launchWall_codes _ _ _ _ _ _ _ _ _ hy
    simp [hc]; omega
  | inside qr hc _ c o P' hy =>
    obtain ⟨iesc, ix, Q, -, hcs, k1, k2, k3, -⟩ := launchInside_inv _ _ _ _ _ _ _ _ _ hy
    simp [hc]; omega

/-- valid arguments, over the reals -/
theorem not_argsBad {D : Descr ℝ} {P : Photon ℝ} {es : List ℝ} (hes : es ≠ []) (hb : ∀ e ∈ es, 1 ≤ e ∧ e ≤ 100) :
    ¬ ArgsBad (some D) (some P) (some es) true := by
  rintro (h | h | h | ⟨es', h, e, he, hbad⟩ | h | h)
  · simp at h
  · simp at h
  · exact hes (by simpa using h)
  · injection h with h; subst h
    rw [(energyBad_false e).mpr (hb e he)] at hbad; simp at hbad
  · simp at h
  · simp at h

theorem launch_ended {lib : Xray ℝ} {D : Descr ℝ} {leak : Bool} {fuel k : Nat} {P : Photon ℝ} {es : List ℝ}
    (hes : es ≠ []) (hb : ∀ e ∈ es, 1 ≤ e ∧ e ≤ 100) {c : Int} {o : WOut ℝ} {P' : Option (Photon ℝ)}
    (h : launch lib (some D) leak fuel k (some P) (some es) true = .ok (c, o, P')) :
    ∃ Q, P' = some Q ∧ Ended lib D leak fuel k P es c o Q := by
  obtain ⟨D', P'', es', e1, e2, e3, -, -, -, h'⟩ :=
    launch_valid lib (some D) leak fuel k (some P) (some es) true (not_argsBad hes hb)
  injection e1 with e1; injection e2 with e2; injection e3 with e3; subst e1 e2 e3
  rw [h', Out.bind_eq_ok] at h
  obtain ⟨⟨c', o', Q⟩, hx, h⟩ := h
  injection h with h; injection h with h2 h; injection h with h3 h4; subst h2 h3
  exact ⟨Q, h4.symm, launchBody_ended _ _ _ _ _ _ _ _ _ _ hx⟩

theorem linAt_scale (k z0 z1 v0 v1 z : ℝ) : linAt z0 z1 (k * v0) (k * v1) z = k * linAt z0 z1 v0 v1 z := by
  unfold linAt; ring

theorem ValueAt.scale {p : Profile ℝ} {v : Nat → ℝ} {z r : ℝ} (h : ValueAt p v z r) (k : ℝ) (v' : Nat → ℝ)
    (hv : ∀ i, v' i = k * v i) : ValueAt p v' z (k * r) := by
  obtain ⟨i, hi, a, b, rfl⟩ := h
  refine ⟨i, hi, a, b, ?_⟩
  rw [hv, hv, linAt_scale]

/-- Start position in glass, in an optic that at this height has radius `R` and capillaries of radius `rad`: further
than `rad` from the centre of its capillary – for up to 3 capillaries the optic axis, otherwise the capillary
`hexRound` selects, which is the nearest one (C16). -/
def InGlass (n_cap : Int) (R rad : ℝ) (c : V3 ℝ) : Prop :=
  if n_cap ≤ 3 then rad < Real.sqrt (c.x ^ 2 + c.y ^ 2)
  else
    let N := nShells (α := ℝ) n_cap
    rad < Real.sqrt (dist2Centre N R c.x c.y (hexRound N R c.x c.y).1 (hexRound N R c.x c.y).2)

theorem axX_eq (D : Descr ℝ) (hn : 1 ≤ D.n_cap) (qr : Int × Int) (i : Nat) :
    axX D qr i = centreX (nShells (α := ℝ) D.n_cap) 1 qr.1 qr.2 * D.prof.ext i := by
  have h0 := (nShells_iff D.n_cap hn (nShells (α := ℝ) D.n_cap)).mp rfl
  have hc := cospi6_pos
  have : (0:ℝ) < (nShells (α := ℝ) D.n_cap : ℝ) + 1 := by
    have : (0:ℝ) ≤ (nShells (α := ℝ) D.n_cap : ℝ) := by exact_mod_cast h0.1
    linarith
  simp only [axX, capCentre, hexCell, centreX, real_mul, real_div, real_lit, real_ofInt]
  push_cast
  field_simp

theorem axY_eq (D : Descr ℝ) (hn : 1 ≤ D.n_cap) (qr : Int × Int) (i : Nat) :
    axY D qr i = centreY (nShells (α := ℝ) D.n_cap) 1 qr.2 * D.prof.ext i := by
  have h0 := (nShells_iff D.n_cap hn (nShells (α := ℝ) D.n_cap)).mp rfl
  have hc := cospi6_pos
  have : (0:ℝ) < (nShells (α := ℝ) D.n_cap : ℝ) + 1 := by
    have : (0:ℝ) ≤ (nShells (α := ℝ) D.n_cap : ℝ) := by exact_mod_cast h0.1
    linarith
  simp only [axY, capCentre, hexCell, centreY, real_mul, real_div, real_lit, real_ofInt]
  push_cast
  field_simp
  ring

theorem centreX_scale (n : ℤ) (R : ℝ) (q r : ℤ) : centreX n 1 q r * R = centreX n R q r := by
  unfold centreX; ring
theorem centreY_scale (n : ℤ) (R : ℝ) (r : ℤ) : centreY n 1 r * R = centreY n R r := by
  unfold centreY; ring

theorem startsInWall_iff {D : Descr ℝ} (g : Grid D.prof) (hn : 1 ≤ D.n_cap) {c : V3 ℝ} (h0 : 0 ≤ c.z)
    (h1 : c.z ≤ D.prof.z D.prof.nmax) {R rad : ℝ} (hR : ValueAt D.prof D.prof.ext c.z R)
    (hrad : ValueAt D.prof D.prof.cap c.z rad) {qr : Int × Int} (hq : launchCap D c = some qr) :
    startsInWall D qr c = true ↔ InGlass D.n_cap R rad c := by
  have hR' : launchExt D.prof c.z = R := (launchExt_value g h0 h1).unique g hR
  have hr' : atStart D.prof D.prof.cap c.z = rad := (atStart_value g _ h0 h1).unique g hrad
  have hx : atStart D.prof (axX D qr) c.z = centreX (nShells (α := ℝ) D.n_cap) R qr.1 qr.2 := by
    rw [← centreX_scale]
    exact (atStart_value g _ h0 h1).unique g (hR.scale _ _ (axX_eq D hn qr))
  have hy : atStart D.prof (axY D qr) c.z = centreY (nShells (α := ℝ) D.n_cap) R qr.2 := by
    rw [← centreY_scale]
    exact (atStart_value g _ h0 h1).unique g (hR.scale _ _ (axY_eq D hn qr))
  unfold startsInWall InGlass
  simp only [hx, hy, hr', gt, real_lt, real_sqrt, real_add, real_mul, real_sub, decide_eq_true_eq]
  simp only [← nShells_zero_iff D.n_cap hn]
  rcases launchCap_some hq with ⟨hz, hqr⟩ | ⟨hz, hqr⟩
  · rw [if_pos hz, hqr, hz]
    simp only [centreX, centreY, Int.cast_zero, mul_zero, zero_add, zero_mul, add_zero, sub_zero]
    rw [← pow_two, ← pow_two]
  · rw [if_neg hz, hqr, hR']
    simp only [dist2Centre, pow_two]

/-- **C24**, 2 and the rest.  With valid arguments and a start position in the optic:
a position in glass gives 2 unless leaks are calculated and the position is beyond the entrance, in which case it gives
1 or -1; a position in a capillary gives -1, 0 or 1, and one weight per energy. -/
theorem launch_glass (lib : Xray ℝ) (D : Descr ℝ) (leak : Bool) (fuel k : Nat) (P : Photon ℝ) (es : List ℝ)
    (hes : es ≠ []) (hb : ∀ e ∈ es, 1 ≤ e ∧ e ≤ 100) (g : Grid D.prof) (hn : 1 ≤ D.n_cap)
    (h0 : 0 ≤ P.startC.z) (h1 : P.startC.z ≤ D.prof.z D.prof.nmax) (R rad : ℝ) (hR : ValueAt D.prof D.prof.ext P.startC.z R)
    (hrad : ValueAt D.prof D.prof.cap P.startC.z rad) (hpos : 0 < R) (hin : ¬ Outside D.n_cap R P.startC)
    (c : Int) (o : WOut ℝ) (P' : Option (Photon ℝ))
    (h : launch lib (some D) leak fuel k (some P) (some es) true = .ok (c, o, P')) :
    (c = 2 → InGlass D.n_cap R rad P.startC) ∧
    (InGlass D.n_cap R rad P.startC → leak = false ∨ P.startC.z = 0 → c = 2) ∧
    (InGlass D.n_cap R rad P.startC → leak = true → 0 < P.startC.z → (c = 1 ∨ c = -1) ∧ o = .uninit) ∧
    (¬ InGlass D.n_cap R rad P.startC → (c = -1 ∨ c = 0 ∨ c = 1) ∧ ∃ ws, o = .filled ws) := by
  have e0 : ((0:ℚ):ℝ) = 0 := by norm_num
  have hR' : launchExt D.prof P.startC.z = R := (launchExt_value g h0 h1).unique g hR
  obtain ⟨Q, rfl, he⟩ := launch_ended hes hb h
  cases he with
  | outside hc =>
    rw [launchCap_none hn (by rw [hR']; exact hpos), hR'] at hc
    exact absurd hc hin
  | glass qr hc hw hl =>
    have hg := (startsInWall_iff g hn h0 h1 hR hrad hc).mp hw
    refine ⟨fun _ => hg, fun _ _ => rfl, fun _ hl' hz => ?_, fun h => absurd hg h⟩
    rcases hl with hl | ⟨-, hl⟩
    · rw [hl] at hl'; simp at hl'
    · simp only [gt, real_lt, real_lit, e0, decide_eq_false_iff_not] at hl
      exact absurd hz hl
  | front qr hc hw hl hz x hx =>
    have hg := (startsInWall_iff g hn h0 h1 hR hrad hc).mp hw
    refine ⟨fun _ => hg, fun _ _ => rfl, fun _ hl' hz' => ?_, fun h => absurd hg h⟩
    simp only [real_beq, real_lit, e0, decide_eq_true_eq] at hz
    linarith
  | within qr hc hw hl hz hz' w hx c o P' hy =>
    have hg := (startsInWall_iff g hn h0 h1 hR hrad hc).mp hw
    have hcc := launchWall_codes _ _ _ _ _ _ _ _ _ hy
    refine ⟨by omega, fun _ hh => ?_, fun _ _ _ => ⟨by omega, hcc.2⟩, fun h => absurd hg h⟩
    simp only [real_beq, real_lit, e0, decide_eq_false_iff_not] at hz
    rcases hh with hh | hh
    · rw [hh] at hl; simp at hl
    · exact absurd hh hz
  | inside qr hc hw c o P' hy =>
    have hg : ¬ InGlass D.n_cap R rad P.startC := by
      rw [← startsInWall_iff g hn h0 h1 hR hrad hc, hw]; simp
    obtain ⟨iesc, ix, Q', -, hcs, k1, k2, k3, k4, -⟩ := launchInside_inv _ _ _ _ _ _ _ _ _ hy
    exact ⟨by omega, fun h => absurd h hg, fun h => absurd h hg, fun _ => ⟨by omega, _, k4⟩⟩

/-- **C24**, 0 against 1.  When a launch hands out weights, 0 says that all of them are below 10⁻⁴ and 1 that at least one
is not. -/
theorem launch_absorbed_iff (lib : Xray ℝ) (D : Descr ℝ) (leak : Bool) (fuel k : Nat) (P : Photon ℝ) (es : List ℝ)
    (hes : es ≠ []) (hb : ∀ e ∈ es, 1 ≤ e ∧ e ≤ 100) (c : Int) (ws : List ℝ) (P' : Option (Photon ℝ))
    (h : launch lib (some D) leak fuel k (some P) (some es) true = .ok (c, .filled ws, P')) :
    (c = 0 → ∀ w ∈ ws, w < 1 / 10 ^ 4) ∧ (c = 1 → ∃ w ∈ ws, 1 / 10 ^ 4 ≤ w) := by
  have e4 : ((1/10^4:ℚ):ℝ) = 1/10^4 := by norm_num
  have e1 : ((1:ℚ):ℝ) = 1 := by norm_num
  have hal : ∀ ch : Chan ℝ, alive ch ↔ 1 / 10 ^ 4 ≤ ch.w := by
    intro ch
    simp only [alive, ge, real_le, real_lit, e4, decide_eq_true_eq]
  obtain ⟨Q, rfl, he⟩ := launch_ended hes hb h
  cases he with
  | within qr hc hw hl hz hz' w hx c o P' hy =>
    have hcc := launchWall_codes _ _ _ _ _ _ _ _ _ hy
    simp at hcc
  | inside qr hc hw c o P' hy =>
    obtain ⟨iesc, ix, Q', ht, hcs, k1, k2, k3, k4, -⟩ := launchInside_inv _ _ _ _ _ _ _ _ _ hy
    injection k4 with k4; subst k4
    have hinit : ∃ ch ∈ (launchInit lib D es P).chans, alive ch := by
      obtain ⟨e, es', rfl⟩ := List.exists_cons_of_ne_nil hes
      refine ⟨_, List.mem_cons_self, ?_⟩
      rw [hal]; simp only [real_lit, e1]; norm_num
    obtain ⟨f1, f2⟩ := traceLoop_flag D leak fuel k _ _ _ _ _ _ _ _ _ hinit (by right; omega) ht
    constructor
    · intro hc0 w hw
      obtain ⟨ch, hch, rfl⟩ := List.mem_map.mp hw
      have := f1 (k2.mpr hc0) ch hch
      rw [hal] at this
      exact not_le.mp this
    · intro hc1
      obtain ⟨ch, hch, ha⟩ := f2 (k3.mpr hc1)
      exact ⟨ch.w, List.mem_map.mpr ⟨ch, hch, rfl⟩, (hal ch).mp ha⟩

/-! ## C22, C23 -/

theorem launchInit_nonneg (lib : Xray ℝ) (D : Descr ℝ) (P : Photon ℝ) (es : List ℝ) (hcs : ∀ z e, 0 ≤ lib.csTotal z e)
    (hs : scatfRejects D es = false) : NonNeg (launchInit lib D es P) := by
  refine ⟨?_, by simp [launchInit], by simp [launchInit]⟩
  intro c hc
  simp only [launchInit, List.mem_map] at hc
  obtain ⟨e, -, rfl⟩ := hc
  exact ⟨by simp, amu_nonneg lib D es hs hcs e⟩

theorem launchInit_remaining (lib : Xray ℝ) (D : Descr ℝ) (P : Photon ℝ) (es : List ℝ) (j : Nat) :
    remaining (launchInit lib D es P) j ≤ 1 ∧ budget (launchInit lib D es P) j ≤ 1 := by
  have h : remaining (launchInit lib D es P) j ≤ 1 := by
    simp only [remaining, launchInit, List.map_map, List.getD_eq_getElem?_getD, List.getElem?_map]
    cases es[j]? <;> simp
  refine ⟨h, ?_⟩
  simp only [budget]
  have h1 : leaked (launchInit lib D es P).ext j = 0 := leaked_nil j
  have h2 : leaked (launchInit lib D es P).int j = 0 := leaked_nil j
  rw [h1, h2]; linarith

theorem Loses.length {P Q : Photon ℝ} (h : Loses P Q) : Q.chans.length = P.chans.length := by
  have := congrArg List.length h.static
  simpa using this

/-- **C22.** The weights handed out by a launch: one per energy, each between 0 and 1.  (`hcs`: cross sections of the
xraylib tables are not negative; `hs`: the composition is one `polycap_photon_scatf` accepts.) -/
theorem launch_weights (lib : Xray ℝ) (D : Descr ℝ) (leak : Bool) (fuel k : Nat) (P : Photon ℝ) (es : List ℝ)
    (hcs : ∀ z e, 0 ≤ lib.csTotal z e) (hs : scatfRejects D es = false) (c : Int) (ws : List ℝ) (P' : Option (Photon ℝ))
    (h : launch lib (some D) leak fuel k (some P) (some es) true = .ok (c, .filled ws, P')) :
    ws.length = es.length ∧ ∀ w ∈ ws, 0 ≤ w ∧ w ≤ 1 := by
  obtain ⟨-, -, hes, hb, -⟩ := (scatf_accepts_iff D es).mp hs
  obtain ⟨Q, rfl, he⟩ := launch_ended hes hb h
  cases he with
  | within qr hc hw hl hz hz' w hx c o P' hy =>
    have hcc := launchWall_codes _ _ _ _ _ _ _ _ _ hy
    simp at hcc
  | inside qr hc hw c o P' hy =>
    obtain ⟨iesc, ix, Q', ht, hcs', k1, k2, k3, k4, -⟩ := launchInside_inv _ _ _ _ _ _ _ _ _ hy
    injection k4 with k4; subst k4
    have hL := traceLoop_loses (trace_loses D leak fuel k _ _) _ _ _ _ _ (launchInit_nonneg lib D P es hcs hs) ht
    refine ⟨?_, ?_⟩
    · rw [List.length_map, hL.length]; simp [launchInit]
    · intro w hw
      obtain ⟨ch, hch, rfl⟩ := List.mem_map.mp hw
      refine ⟨(hL.nonneg.chans ch hch).1, ?_⟩
      obtain ⟨j, hj, rfl⟩ := List.mem_iff_getElem.mp hch
      have := (hL.remaining j).trans (launchInit_remaining lib D P es j).1
      simpa [remaining, List.getD_eq_getElem?_getD, List.getElem?_map, List.getElem?_eq_getElem hj] using this

/-- weight number `j` handed out by a launch (0 when none was) -/
noncomputable def WOut.at : WOut ℝ → Nat → ℝ
  | .filled ws, j => ws.getD j 0
  | _, _ => 0

theorem finish_leaked (P : Photon ℝ) : (finish P).ext = P.ext ∧ (finish P).int = P.int := ⟨rfl, rfl⟩

theorem leak_budget {P0 Q : Photon ℝ} (h : Loses P0 Q) (j : Nat) (hb : budget P0 j ≤ 1) :
    leaked Q.ext j + leaked Q.int j ≤ 1 := by
  have := (h.budget j).trans hb
  have := remaining_nonneg h.nonneg j
  simp only [budget] at *
  linarith

theorem attenuate_chans {cs : List (Chan ℝ)} (h : ∀ c ∈ cs, 0 ≤ c.w ∧ 0 ≤ c.amu) {d : ℝ} (hd : 0 ≤ d) (j : Nat) :
    (∀ c ∈ cs.map (attenuate d), 0 ≤ c.w ∧ 0 ≤ c.amu) ∧
    ((cs.map (attenuate d)).map (·.w)).getD j 0 ≤ (cs.map (·.w)).getD j 0 := by
  have em : ((-1:ℚ):ℝ) = -1 := by norm_num
  have key : ∀ c ∈ cs, 0 ≤ (attenuate d c).w ∧ (attenuate d c).w ≤ c.w ∧ (attenuate d c).amu = c.amu := by
    intro c hc
    obtain ⟨h1, h2⟩ := h c hc
    obtain ⟨a, b⟩ := exp_att d c.amu hd h2
    simp only [attenuate, real_mul, real_exp, real_lit, em]
    exact ⟨mul_nonneg h1 a, mul_le_of_le_one_right h1 b, trivial⟩
  constructor
  · intro c hc
    obtain ⟨c', hc', rfl⟩ := List.mem_map.mp hc
    exact ⟨(key c' hc').1, by rw [(key c' hc').2.2]; exact (h c' hc').2⟩
  · simp only [List.getD_eq_getElem?_getD, List.getElem?_map]
    cases hj : cs[j]? with
    | none => simp
    | some c => simpa using (key c (List.mem_of_getElem? hj)).2.1

theorem launchWall_budget (D : Descr ℝ) (leak : Bool) (fuel k : Nat) (P : Photon ℝ) (w : Wall ℝ) (hw : 0 ≤ w.d)
    (hP : NonNeg P) (j : Nat) (hb : budget P j ≤ 1) (c : Int) (o : WOut ℝ) (P' : Photon ℝ)
    (h : launchWall D leak fuel k P w = .ok (c, o, P')) : leaked P'.ext j + leaked P'.int j ≤ 1 := by
  unfold launchWall at h
  simp only at h
  split at h
  · injection h with h; injection h with h1 h; injection h with h2 h3; subst h3
    exact leak_budget (.refl hP) j hb
  split at h
  · simp at h
  have hat := attenuate_chans hP.chans hw
  split at h
  · injection h with h; injection h with h1 h; injection h with h2 h3; subst h3
    have := (hat j).2
    simp only [finish, clearWall, leaked_append, leaked_single]
    simp only [budget, remaining] at hb
    simp only [] at this ⊢
    linarith
  split at h
  · injection h with h; injection h with h1 h; injection h with h2 h3; subst h3
    have := (hat j).2
    simp only [finish, clearWall, leaked_append, leaked_single]
    simp only [budget, remaining] at hb
    linarith
  rw [Out.bind_eq_ok] at h
  obtain ⟨⟨iesc, ix, Q⟩, ht, h⟩ := h
  generalize hT : ({ P with chans := P.chans.map (attenuate w.d), exitC := along P.exitC P.exitD w.d, d_travel := (P.d_travel +. w.d) } : Photon ℝ) = T at ht
  have hT1 : T.chans = P.chans.map (attenuate w.d) := by rw [← hT]
  have hT2 : T.ext = P.ext := by rw [← hT]
  have hT3 : T.int = P.int := by rw [← hT]
  have hTn : NonNeg T := ⟨by rw [hT1]; exact (hat j).1, by rw [hT2]; exact hP.ext, by rw [hT3]; exact hP.int⟩
  have hTb : budget T j ≤ 1 := by
    have := (hat j).2
    simp only [budget, remaining, hT1, hT2, hT3] at hb ⊢
    linarith
  have hL := traceLoop_loses (trace_loses D leak fuel k _ _) _ _ _ _ _ hTn ht
  simp only at hL
  split at h
  · injection h with h; injection h with h1 h; injection h with h2 h3; subst h3
    exact leak_budget hL j hTb
  · injection h with h; injection h with h1 h; injection h with h2 h3; subst h3
    have hlb := leak_budget hL j hTb
    have hrb := (hL.budget j).trans hTb
    simp only [budget, remaining] at hrb
    simp only [finish, clearWall, recordLaunch]
    split_ifs
    · simp only [leaked_append, leaked_single]; linarith
    · simp only [leaked_append, leaked_single]; linarith
    · exact hlb
    · exact hlb

/-- **C23.** For every energy, what a launch hands out plus everything it recorded as leaked – through the sides, through
the exit window, directly or via neighbouring capillaries – is at most 1, the weight the photon starts with.  This holds
for every way a launch can end. -/
theorem launch_budget (lib : Xray ℝ) (D : Descr ℝ) (leak : Bool) (fuel k : Nat) (P : Photon ℝ) (es : List ℝ)
    (hcs : ∀ z e, 0 ≤ lib.csTotal z e) (hs : scatfRejects D es = false) (c : Int) (o : WOut ℝ) (P' : Photon ℝ)
    (h : launch lib (some D) leak fuel k (some P) (some es) true = .ok (c, o, some P')) (j : Nat) :
    o.at j + leaked P'.ext j + leaked P'.int j ≤ 1 := by
  obtain ⟨-, -, hes, hb, -⟩ := (scatf_accepts_iff D es).mp hs
  obtain ⟨Q, hQ, he⟩ := launch_ended hes hb h
  injection hQ with hQ; subst hQ
  have hN := launchInit_nonneg lib D P es hcs hs
  have hB := (launchInit_remaining lib D P es j).2
  cases he with
  | outside hc =>
    have := leak_budget (.refl hN) j hB
    simpa [WOut.at, finish] using this
  | glass qr hc hw hl =>
    have := leak_budget (.refl hN) j hB
    simpa [WOut.at, finish] using this
  | front qr hc hw hl hz x hx =>
    have := leak_budget (reflect_loses D leak fuel k _ _ _ _ hN hx) j hB
    simpa [WOut.at, finish] using this
  | within qr hc hw hl hz hz' w hx c o P' hy =>
    have := launchWall_budget D leak fuel k { launchInit lib D es P with exitD := vnorm (launchInit lib D es P).exitD } w
      (traceWall_d _ _ _ _ _ hx).1 (hN.congr rfl rfl rfl) j hB _ _ _ hy
    rw [(launchWall_codes _ _ _ _ _ _ _ _ _ hy).2]
    simpa [WOut.at, finish] using this
  | inside qr hc hw c o P' hy =>
    obtain ⟨iesc, ix, Q', ht, hcs', k1, k2, k3, rfl, rfl⟩ := launchInside_inv _ _ _ _ _ _ _ _ _ hy
    have hL := traceLoop_loses (trace_loses D leak fuel k _ _) _ _ _ _ _ hN ht
    have := (hL.budget j).trans hB
    simpa [WOut.at, budget, remaining, finish] using this

/-! ## C20, C42, C43: the trajectory -/

/-- **C20, C42, C43.**  A photon launched in a capillary with a non-zero start direction: its trajectory is a broken line
of straight flights inside the capillary with a mirror reflection at each corner (`Path`), its reflection counter is the
number of corners, which is at most the number of profile points, the travelled distance grew by the length of the line,
and its final direction is a unit vector. -/
theorem launch_path (lib : Xray ℝ) (D : Descr ℝ) (leak : Bool) (fuel k : Nat) (P : Photon ℝ) (es : List ℝ)
    (hes : es ≠ []) (hb : ∀ e ∈ es, 1 ≤ e ∧ e ≤ 100) (hd : dot P.startD P.startD ≠ 0)
    (c : Int) (ws : List ℝ) (P' : Photon ℝ)
    (h : launch lib (some D) leak fuel k (some P) (some es) true = .ok (c, .filled ws, some P')) :
    ∃ qr m len, launchCap D P.startC = some qr ∧
      Path D (axX D qr) (axY D qr) P.startC (vnorm P.startD) m len P'.exitC P'.exitD ∧
      P'.i_refl = m ∧ m ≤ D.prof.nmax + 1 ∧ P'.d_travel = P.d_travel + len ∧ dot P'.exitD P'.exitD = 1 := by
  obtain ⟨Q, hQ, he⟩ := launch_ended hes hb h
  injection hQ with hQ; subst hQ
  cases he with
  | within qr hc hw hl hz hz' w hx c o P' hy =>
    have hcc := launchWall_codes _ _ _ _ _ _ _ _ _ hy
    simp at hcc
  | inside qr hc hw c o P' hy =>
    obtain ⟨iesc, ix, Q', ht, -, -, -, -, -, rfl⟩ := launchInside_inv _ _ _ _ _ _ _ _ _ hy
    have h1 := vnorm_dot _ hd
    have hdir : (launchInit lib D es P).exitD = vnorm P.startD := by
      show vnorm (vnorm P.startD) = _
      exact vnorm_unit _ h1
    obtain ⟨m, len, p, q1, q2, q3, q4⟩ := traceLoop_path D leak fuel k _ _ _ _ _ _ _ _ _ (by rw [hdir]; exact h1) ht
    rw [hdir] at p
    refine ⟨qr, m, len, hc, p, ?_, q3, q2, q4⟩
    rw [show (finish Q').i_refl = Q'.i_refl from rfl, q1]
    simp [launchInit]

/-- **C42**, **C43**, as plain inequalities: distance at least the displacement; every reflection 10⁻⁵ downstream; so the
number of reflections is bounded by the length of the optic. -/
theorem launch_travel (lib : Xray ℝ) (D : Descr ℝ) (leak : Bool) (fuel k : Nat) (P : Photon ℝ) (es : List ℝ)
    (hes : es ≠ []) (hb : ∀ e ∈ es, 1 ≤ e ∧ e ≤ 100) (hd : dot P.startD P.startD ≠ 0) (g : Grid D.prof)
    (h1 : P.startC.z ≤ D.prof.z D.prof.nmax) (c : Int) (ws : List ℝ) (P' : Photon ℝ)
    (h : launch lib (some D) leak fuel k (some P) (some es) true = .ok (c, .filled ws, some P')) :
    P.d_travel + gap P'.exitC P.startC ≤ P'.d_travel ∧ 0 ≤ P'.i_refl ∧ P'.i_refl ≤ D.prof.nmax + 1 ∧
    (P'.i_refl : ℝ) / 10 ^ 5 ≤ P'.exitC.z - P.startC.z ∧ P'.exitC.z ≤ D.prof.z D.prof.nmax ∧
    (P'.i_refl : ℝ) ≤ (D.prof.z D.prof.nmax - P.startC.z) * 10 ^ 5 := by
  obtain ⟨qr, m, len, -, p, e1, e2, e3, -⟩ := launch_path lib D leak fuel k P es hes hb hd c ws P' h
  have a1 := p.displacement
  have a2 := p.downstream
  have a3 := p.inside g.inc h1
  rw [e1, e3]
  refine ⟨by linarith, by positivity, by exact_mod_cast e2, ?_, a3, ?_⟩
  · push_cast; linarith
  · push_cast; linarith

theorem traceLoop_travel (D : Descr ℝ) (leak : Bool) (fuel kk : Nat) (capx capy : Nat → ℝ) (k : Nat) (iesc : Int) (ix : Nat)
    (P : Photon ℝ) (x) (hu : dot P.exitD P.exitD = 1)
    (h : traceLoop (trace D leak fuel kk capx capy) k iesc ix P = .ok x) : P.d_travel ≤ x.2.2.d_travel := by
  obtain ⟨c, ix', P'⟩ := x
  obtain ⟨m, len, p, -, q, -⟩ := traceLoop_path D leak fuel kk capx capy k iesc ix P c ix' P' hu h
  have := p.length_nonneg
  simp only at *
  linarith

/-- **C42.** No launch, however it ends, decreases the travelled distance. -/
theorem launch_travel_mono (lib : Xray ℝ) (D : Descr ℝ) (leak : Bool) (fuel k : Nat) (P : Photon ℝ) (es : List ℝ)
    (hes : es ≠ []) (hb : ∀ e ∈ es, 1 ≤ e ∧ e ≤ 100) (hd : dot P.startD P.startD ≠ 0) (c : Int) (o : WOut ℝ) (P' : Photon ℝ)
    (h : launch lib (some D) leak fuel k (some P) (some es) true = .ok (c, o, some P')) : P.d_travel ≤ P'.d_travel := by
  have h1 := vnorm_dot _ hd
  have hdir : (launchInit lib D es P).exitD = vnorm P.startD := by
    show vnorm (vnorm P.startD) = _
    exact vnorm_unit _ h1
  obtain ⟨Q, hQ, he⟩ := launch_ended hes hb h
  injection hQ with hQ; subst hQ
  cases he with
  | outside => exact le_refl _
  | glass => exact le_refl _
  | front qr hc hw hl hz x hx =>
    obtain ⟨f, -⟩ := reflect_frame _ _ _ _ _ _ x.1 x.2 hx
    show _ ≤ x.2.d_travel
    rw [f.d_travel]; exact le_refl _
  | within qr hc hw hl hz hz' w hx c o P' hy =>
    have hwd := (traceWall_d _ _ _ _ _ hx).1
    unfold launchWall at hy
    simp only at hy
    split at hy
    · injection hy with hy; injection hy with h1 hy; injection hy with h2 h3; subst h3; exact le_refl _
    split at hy
    · simp at hy
    split at hy
    · injection hy with hy; injection hy with h1 hy; injection hy with h2 h3; subst h3; exact le_refl _
    split at hy
    · injection hy with hy; injection hy with h1 hy; injection hy with h2 h3; subst h3; exact le_refl _
    rw [Out.bind_eq_ok] at hy
    obtain ⟨x, ht, hy⟩ := hy
    have hx' := traceLoop_travel D leak fuel k _ _ _ _ _ _ _ (by
      show dot (vnorm _) (vnorm _) = 1
      rw [hdir, vnorm_unit _ h1]; exact h1) ht
    have hx'' : P.d_travel ≤ x.2.2.d_travel := by
      refine le_trans ?_ hx'
      show P.d_travel ≤ P.d_travel + w.d
      linarith
    split at hy
    · injection hy with hy; injection hy with h1 hy; injection hy with h2 h3; subst h3; exact hx''
    · injection hy with hy; injection hy with h1 hy; injection hy with h2 h3; subst h3
      simp only [finish, clearWall, recordLaunch]
      split_ifs <;> exact hx''
  | inside qr hc hw c o P' hy =>
    obtain ⟨iesc, ix, Q', ht, -, -, -, -, -, rfl⟩ := launchInside_inv _ _ _ _ _ _ _ _ _ hy
    exact traceLoop_travel D leak fuel k _ _ _ _ _ _ _ (by rw [hdir]; exact h1) ht

end Polycap
