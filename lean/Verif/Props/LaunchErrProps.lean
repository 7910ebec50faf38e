import Verif.LaunchErr

/-!
# C79: what `polycap_photon_launch` reports
-/
namespace Polycap
open CNum

variable {α : Type} [CNum α]

/-- forget the error slot -/
def vals {B : Type} (x : Out (B × EArg)) : Out B := x >>= fun r => .ok r.1

@[simp] theorem vals_ok {B : Type} (b : B) (e : EArg) : vals (.ok (b, e)) = .ok b := rfl
@[simp] theorem vals_ok' {B : Type} (b : B × EArg) : vals (.ok b) = .ok b.1 := rfl
@[simp] theorem vals_ub {B : Type} : vals (.ub : Out (B × EArg)) = .ub := rfl
@[simp] theorem vals_fuel {B : Type} : vals (.fuel : Out (B × EArg)) = .fuel := rfl

theorem vals_bind {A B : Type} (x : Out (A × EArg)) (y : Out A) (f : A × EArg → Out (B × EArg)) (g : A → Out B) (h : vals x = y)
    (hf : ∀ a e, vals (f (a, e)) = g a) : vals (x >>= f) = y >>= g := by
  subst h
  cases x with
  | ok r => exact hf r.1 r.2
  | ub => rfl
  | fuel => rfl

theorem vals_bind' {A B : Type} (x : Out A) (f : A → Out (B × EArg)) (g : A → Out B) (hf : ∀ a, vals (f a) = g a) :
    vals (x >>= f) = x >>= g := by
  cases x with
  | ok r => exact hf r
  | ub => rfl
  | fuel => rfl

theorem pcIntersect_vals (p : Profile α) (c d : V3 α) (e : EArg) : vals (pcIntersect p c d e) = vals (pcIntersect p c d none) := by
  unfold pcIntersect
  split
  · rfl
  · dsimp only
    split
    · rfl
    · rw [vals_bind' (g := fun o => match o with
        | none => .ok none
        | some j => pcFinish p c (revDir d) (if (revDir d).z <. lit 0 then -1 else 1) j)]
      · rw [vals_bind' (g := fun o => match o with
          | none => .ok none
          | some j => pcFinish p c (revDir d) (if (revDir d).z <. lit 0 then -1 else 1) j)]
        intro a
        cases a with
        | none => rfl
        | some j =>
          dsimp only
          cases pcFinish p c (revDir d) (if (revDir d).z <. lit 0 then -1 else 1) j <;> rfl
      · intro a
        cases a with
        | none => rfl
        | some j =>
          dsimp only
          cases pcFinish p c (revDir d) (if (revDir d).z <. lit 0 then -1 else 1) j <;> rfl

theorem wallSegsE_value (p : Profile α) (ns : Int) (q r : Int) (c d : V3 α) : ∀ (k zid : Nat) (cur : V3 α) (e : EArg),
    (wallSegsE p ns q r c d k zid cur e).1 = wallSegs p ns q r c d k zid cur
  | 0, zid, cur, e => by
    unfold wallSegsE wallSegs
    dsimp only
    split <;> rfl
  | k + 1, zid, cur, e => by
    unfold wallSegsE wallSegs
    dsimp only
    split
    · rfl
    · exact wallSegsE_value p ns q r c d k _ _ _

theorem wallExitE_value (p : Profile α) (c d last : V3 α) (q r : Int) (e : EArg) :
    vals (wallExitE p c d last q r e) = wallExit p c d last q r := by
  unfold wallExitE wallExit
  dsimp only
  split
  · have h := pcIntersect_vals p (atGrid p c d p.nmax) d (boundaryE (p.ext p.nmax) e)
    revert h
    cases pcIntersect p (atGrid p c d p.nmax) d (boundaryE (p.ext p.nmax) e) <;>
      cases pcIntersect p (atGrid p c d p.nmax) d none <;> intro h <;> simp at h ⊢
    rename_i a b
    obtain ⟨a1, a2⟩ := a
    obtain ⟨b1, b2⟩ := b
    simp only at h ⊢
    subst h
    cases a1 <;> rfl
  · rfl

theorem wallEndE_value (p : Profile α) (c d : V3 α) (s : (Int × Nat × V3 α) × EArg) (q r : Int) :
    vals (wallEndE p c d s q r) = wallEnd p c d s.1 q r := by
  unfold wallEndE wallEnd
  split
  · exact wallExitE_value ..
  · split <;> rfl

theorem wallHexE_value (p : Profile α) (ns : Int) (c d : V3 α) (g : Nat) : ∀ (f : Nat) (qi ri : Int) (dist : α) (zid : Nat) (cur : V3 α)
    (e : EArg), vals (wallHexE p ns c d g f qi ri dist zid cur e) = wallHex p ns c d g f qi ri dist zid cur
  | 0, _, _, _, _, _, _ => rfl
  | f + 1, qi, ri, dist, zid, cur, e => by
    unfold wallHexE wallHex
    refine vals_bind' _ _ _ fun a => ?_
    cases a with
    | stumbled dd => rfl
    | left dist zid ph q r =>
      dsimp only
      split
      · exact wallExitE_value ..
      · rw [wallSegsE_value]
        split
        · exact wallHexE_value p ns c d g f _ _ _ _ _ _
        · rw [wallEndE_value, wallSegsE_value]

theorem traceWallE_value (D : Descr α) (fuel : Nat) (c d : V3 α) (e : EArg) :
    vals (traceWallE D fuel c d e) = traceWall D fuel c d := by
  unfold traceWallE traceWall
  dsimp only
  split
  · rfl
  · split
    · split
      · rfl
      · rw [wallEndE_value, wallSegsE_value]
    · split
      · rfl
      · exact wallHexE_value ..

omit [CNum α] in
theorem traceLoopE_value {trE : Nat → Photon α → EArg → Out ((Int × Nat × Photon α) × EArg)}
    {tr : Nat → Photon α → Out (Int × Nat × Photon α)} (h : ∀ ix P e, vals (trE ix P e) = tr ix P) :
    ∀ (k : Nat) (iesc : Int) (ix : Nat) (P : Photon α) (e : EArg), vals (traceLoopE trE k iesc ix P e) = traceLoop tr k iesc ix P
  | 0, _, _, _, _ => rfl
  | k + 1, iesc, ix, P, e => by
    unfold traceLoopE traceLoop
    refine vals_bind _ _ _ _ (h ix P e) fun a s => ?_
    dsimp only
    split
    · rfl
    · exact traceLoopE_value h k _ _ _ _

theorem reflectLeakE_value (D : Descr α) {trE : Int → Int → Nat → Photon α → EArg → Out ((Int × Nat × Photon α) × EArg)}
    {tr : Int → Int → Nat → Photon α → Out (Int × Nat × Photon α)} (h : ∀ q r ix P e, vals (trE q r ix P e) = tr q r ix P)
    (P : Photon α) (w : Wall α) (wl : List α) (iesc : Int) (e : EArg) :
    vals (reflectLeakE D trE P w wl iesc e) = reflectLeak D tr P w wl iesc := by
  unfold reflectLeakE reflectLeak
  dsimp only
  split
  · rfl
  · split
    · rfl
    · split
      · cases photonNew (along P.exitC P.exitD w.d) P.exitD P.exitE with
        | none => rfl
        | some T =>
          refine vals_bind _ _ _ _ (traceLoopE_value (h w.q w.r) _ _ _ _ _) fun a s => ?_
          dsimp only
          split <;> rfl
      · rfl

theorem reflectBodyE_value (D : Descr α) (leak : Bool) (fuel : Nat)
    {trE : Int → Int → Nat → Photon α → EArg → Out ((Int × Nat × Photon α) × EArg)}
    {tr : Int → Int → Nat → Photon α → Out (Int × Nat × Photon α)} (h : ∀ q r ix P e, vals (trE q r ix P e) = tr q r ix P)
    (norm : V3 α) (P : Photon α) (e : EArg) :
    vals (reflectBodyE D leak fuel trE norm P e) = reflectBody D leak fuel tr norm P := by
  unfold reflectBodyE reflectBody
  dsimp only
  split
  · rfl
  · refine vals_bind _ _ _ _ ?_ fun w s => ?_
    · unfold wallOfE wallOf
      split
      · exact traceWallE_value ..
      · rfl
    · unfold reflectRestE reflectRest
      dsimp only
      split
      · rfl
      · split
        · rfl
        · split
          · rfl
          · split
            · exact reflectLeakE_value D h _ _ _ _ _
            · rfl

theorem traceSearchE_value (D : Descr α) (capx capy : Nat → α) (P : Photon α) : ∀ (k i : Nat) (cur nrm : V3 α) (e : EArg),
    (traceSearchE D capx capy P k i cur nrm e).1 = traceSearch D capx capy P k i cur nrm
  | 0, _, _, _, _ => rfl
  | k + 1, i, cur, nrm, e => by
    unfold traceSearchE traceSearch
    dsimp only
    repeat' first | exact traceSearchE_value D capx capy P k _ _ _ _ | rfl | split

theorem capilTraceE_value (D : Descr α) {reE : V3 α → Photon α → EArg → Out ((Int × Photon α) × EArg)}
    {re : V3 α → Photon α → Out (Int × Photon α)} (h : ∀ n P e, vals (reE n P e) = re n P) (capx capy : Nat → α) (ix : Nat)
    (P : Photon α) (e : EArg) : vals (capilTraceE D reE capx capy ix P e) = capilTrace D re capx capy ix P := by
  unfold capilTraceE capilTrace
  dsimp only
  rw [traceSearchE_value]
  cases traceSearch D capx capy { P with exitD := vnorm P.exitD, startD := vnorm P.startD } (D.prof.nmax - ix) ix P.exitC
    ⟨lit 0, lit 0, lit 0⟩ with
  | ret code => rfl
  | miss => rfl
  | hit i v n cosalfa =>
    dsimp only
    unfold traceHitE traceHit
    dsimp only
    split
    · rfl
    · split
      · rfl
      · split
        · rfl
        · split
          · rfl
          · exact vals_bind _ _ _ _ (h _ _ _) fun a s => rfl

theorem reflectE_value (D : Descr α) (leak : Bool) (fuel : Nat) (k : Nat) : ∀ (norm : V3 α) (P : Photon α) (e : EArg),
    vals (reflectE D leak fuel k norm P e) = reflect D leak fuel k norm P := by
  induction k with
  | zero => intros; rfl
  | succ k ih =>
    intro norm P e
    unfold reflectE reflect
    exact reflectBodyE_value D leak fuel (fun q r ix T e => capilTraceE_value D ih (capxOf D q r) (capyOf D q r) ix T e) norm P e

theorem traceE_value (D : Descr α) (leak : Bool) (fuel k : Nat) (capx capy : Nat → α) (ix : Nat) (P : Photon α) (e : EArg) :
    vals (traceE D leak fuel k capx capy ix P e) = trace D leak fuel k capx capy ix P :=
  capilTraceE_value D (reflectE_value D leak fuel k) _ _ _ _ _

theorem launchBodyE_value (lib : Xray α) (D : Descr α) (leak : Bool) (fuel k : Nat) (P : Photon α) (es : List α) (e : EArg) :
    vals (launchBodyE lib D leak fuel k P es e) = launchBody lib D leak fuel k P es := by
  unfold launchBodyE launchBody
  dsimp only
  cases launchCap D (launchInit lib D es P).startC with
  | none => rfl
  | some qr =>
    dsimp only
    split
    · split
      · exact vals_bind _ _ _ _ (reflectE_value ..) fun a s => rfl
      · split
        · refine vals_bind _ _ _ _ (traceWallE_value ..) fun w s => ?_
          unfold launchWallE launchWall
          dsimp only
          split
          · rfl
          · split
            · rfl
            · split
              · rfl
              · split
                · rfl
                · refine vals_bind _ _ _ _ (traceLoopE_value (fun ix P e => traceE_value D leak fuel k _ _ ix P e) _ _ _ _ _)
                    fun a s => ?_
                  dsimp only
                  split <;> rfl
        · rfl
    · unfold launchInsideE launchInside
      exact vals_bind _ _ _ _ (traceLoopE_value (fun ix P e => traceE_value D leak fuel k _ _ ix P e) _ _ _ _ _) fun a s => rfl

/-- **The error argument has no influence**: for every error argument – NULL, empty, or already holding an error – `polycap_photon_launch`
returns the same values. -/
theorem launchE_value (lib : Xray α) (D : Option (Descr α)) (leak : Bool) (fuel k : Nat) (P : Option (Photon α))
    (es : Option (List α)) (wptr : Bool) (e : EArg) :
    vals (launchE lib D leak fuel k P es wptr e) = launch lib D leak fuel k P es wptr := by
  unfold launchE launch
  cases P with
  | none => rfl
  | some P =>
    cases es with
    | none => rfl
    | some es =>
      dsimp only
      split
      · rfl
      · cases D with
        | none => rfl
        | some D => exact vals_bind _ _ _ _ (launchBodyE_value ..) fun a s => rfl

/-! ## The first error is kept -/

/-- the slot is as before, or one error was put into it (if it was empty) -/
def Later (e s : EArg) : Prop := s = e ∨ ∃ c, s = e.set c

theorem Later.refl (e : EArg) : Later e e := .inl rfl

theorem Later.set (e : EArg) (c : Code) : Later e (e.set c) := .inr ⟨c, rfl⟩

theorem Later.trans {a b c : EArg} (h : Later a b) (h' : Later b c) : Later a c := by
  rcases h with rfl | ⟨x, rfl⟩
  · exact h'
  · rcases h' with rfl | ⟨y, rfl⟩
    · exact .inr ⟨x, rfl⟩
    · refine .inr ⟨x, ?_⟩
      rcases a with _ | _ | _ <;> rfl

theorem later_report (e : EArg) (b : Bool) : Later e (report e b) := by
  cases b
  · exact .refl e
  · exact .set e _

theorem later_boundary (r : α) (e : EArg) : Later e (boundaryE r e) := later_report ..

/-- a computation started with slot `e` ends with a later one -/
structure KeepsErr {B : Type} (e : EArg) (x : Out (B × EArg)) : Prop where
  later : ∀ r, x = .ok r → Later e r.2

theorem keeps_ok {B : Type} {e s : EArg} {b : B} (h : Later e s) : KeepsErr e (.ok (b, s)) := ⟨by rintro _ ⟨⟩; exact h⟩
theorem keeps_ub {B : Type} {e : EArg} : KeepsErr e (.ub : Out (B × EArg)) := ⟨by rintro _ ⟨⟩⟩
theorem keeps_fuel {B : Type} {e : EArg} : KeepsErr e (.fuel : Out (B × EArg)) := ⟨by rintro _ ⟨⟩⟩

theorem KeepsErr.mono {B : Type} {e s : EArg} {x : Out (B × EArg)} (h : Later e s) (hx : KeepsErr s x) : KeepsErr e x :=
  ⟨fun r hr => h.trans (hx.later r hr)⟩

theorem keeps_bind {A B : Type} {e : EArg} {x : Out (A × EArg)} {f : A × EArg → Out (B × EArg)} (hx : KeepsErr e x)
    (hf : ∀ a s, Later e s → KeepsErr e (f (a, s))) : KeepsErr e (x >>= f) := by
  refine ⟨fun r hr => ?_⟩
  rw [Out.bind_eq_ok] at hr
  obtain ⟨a, ha, hr⟩ := hr
  exact (hf a.1 a.2 (hx.later a ha)).later r hr

theorem keeps_bind' {A B : Type} {e : EArg} {x : Out A} {f : A → Out (B × EArg)} (hf : ∀ a, KeepsErr e (f a)) : KeepsErr e (x >>= f) := by
  refine ⟨fun r hr => ?_⟩
  rw [Out.bind_eq_ok] at hr
  obtain ⟨a, _, hr⟩ := hr
  exact (hf a).later r hr

theorem pcIntersect_keeps (p : Profile α) (c d : V3 α) (e : EArg) : KeepsErr e (pcIntersect p c d e) := by
  unfold pcIntersect
  dsimp only
  split
  · exact keeps_ok (.set _ _)
  · split
    · exact keeps_ok (.set _ _)
    · refine keeps_bind' fun a => ?_
      cases a with
      | none => exact keeps_ok (.refl _)
      | some j => exact keeps_bind' fun _ => keeps_ok (.refl _)

theorem wallSegsE_keeps (p : Profile α) (ns : Int) (q r : Int) (c d : V3 α) : ∀ (k zid : Nat) (cur : V3 α) (e : EArg),
    Later e (wallSegsE p ns q r c d k zid cur e).2
  | 0, zid, cur, e => by
    unfold wallSegsE
    dsimp only
    split <;> exact later_report ..
  | k + 1, zid, cur, e => by
    unfold wallSegsE
    dsimp only
    split
    · exact later_report ..
    · exact (later_report ..).trans (wallSegsE_keeps p ns q r c d k _ _ _)

theorem wallExitE_keeps (p : Profile α) (c d last : V3 α) (q r : Int) (e : EArg) : KeepsErr e (wallExitE p c d last q r e) := by
  unfold wallExitE
  dsimp only
  split
  · refine keeps_bind ((pcIntersect_keeps ..).mono (later_boundary (α := α) ..)) fun a s h => ?_
    cases a <;> exact keeps_ok h
  · exact keeps_ok (later_boundary (α := α) ..)

theorem wallEndE_keeps (p : Profile α) (c d : V3 α) (s : (Int × Nat × V3 α) × EArg) (q r : Int) : KeepsErr s.2 (wallEndE p c d s q r) := by
  unfold wallEndE
  split
  · exact wallExitE_keeps ..
  · split <;> exact keeps_ok (.refl _)

theorem wallHexE_keeps (p : Profile α) (ns : Int) (c d : V3 α) (g : Nat) : ∀ (f : Nat) (qi ri : Int) (dist : α) (zid : Nat) (cur : V3 α)
    (e : EArg), KeepsErr e (wallHexE p ns c d g f qi ri dist zid cur e)
  | 0, _, _, _, _, _, _ => keeps_fuel
  | f + 1, qi, ri, dist, zid, cur, e => by
    unfold wallHexE
    refine keeps_bind' fun a => ?_
    cases a with
    | stumbled dd => exact keeps_ok (.refl _)
    | left dist zid ph q r =>
      dsimp only
      split
      · exact wallExitE_keeps ..
      · split
        · exact (wallHexE_keeps p ns c d g f _ _ _ _ _ _).mono (wallSegsE_keeps ..)
        · exact (wallEndE_keeps ..).mono (wallSegsE_keeps ..)

theorem traceWallE_keeps (D : Descr α) (fuel : Nat) (c d : V3 α) (e : EArg) : KeepsErr e (traceWallE D fuel c d e) := by
  unfold traceWallE
  dsimp only
  split
  · exact keeps_ok (.refl _)
  · split
    · split
      · exact keeps_ok (.set _ _)
      · exact (wallEndE_keeps ..).mono (wallSegsE_keeps ..)
    · split
      · exact keeps_ok (later_boundary (α := α) ..)
      · exact (wallHexE_keeps ..).mono (later_boundary (α := α) ..)

theorem reflEnergiesE_keeps (D : Descr α) (norm dir : V3 α) : ∀ (cs : List (Chan α)) (E ev : V3 α) (e : EArg),
    Later e (reflEnergiesE D norm dir cs E ev e)
  | [], _, _, _ => .refl _
  | c :: cs, E, ev, e => by
    unfold reflEnergiesE
    dsimp only
    split
    · exact (later_report ..).trans (.set _ _)
    · exact (later_report ..).trans (reflEnergiesE_keeps D norm dir cs _ _ _)

omit [CNum α] in
theorem traceLoopE_keeps {trE : Nat → Photon α → EArg → Out ((Int × Nat × Photon α) × EArg)}
    (h : ∀ ix P e, KeepsErr e (trE ix P e)) : ∀ (k : Nat) (iesc : Int) (ix : Nat) (P : Photon α) (e : EArg),
    KeepsErr e (traceLoopE trE k iesc ix P e)
  | 0, _, _, _, _ => keeps_ok (.refl _)
  | k + 1, iesc, ix, P, e => by
    unfold traceLoopE
    refine keeps_bind (h ix P e) fun a s hs => ?_
    dsimp only
    split
    · exact keeps_ok hs
    · exact (traceLoopE_keeps h k _ _ _ _).mono hs

theorem recordTempE_keeps (D : Descr α) (iesc : Int) (e : EArg) : Later e (recordTempE D iesc e) := by
  unfold recordTempE
  split
  · exact later_boundary (α := α) ..
  · exact .refl _

theorem wallCodeE_keeps (D : Descr α) (code : Int) (lc : V3 α) (e : EArg) : Later e (wallCodeE D code lc e) := by
  unfold wallCodeE
  split
  · split
    · exact .refl _
    · exact later_boundary (α := α) ..
  · exact .refl _

theorem reflectLeakE_keeps (D : Descr α) {trE : Int → Int → Nat → Photon α → EArg → Out ((Int × Nat × Photon α) × EArg)}
    (h : ∀ q r ix P e, KeepsErr e (trE q r ix P e)) (P : Photon α) (w : Wall α) (wl : List α) (iesc : Int) (e : EArg) :
    KeepsErr e (reflectLeakE D trE P w wl iesc e) := by
  unfold reflectLeakE
  dsimp only
  refine KeepsErr.mono (wallCodeE_keeps D w.code (along P.exitC P.exitD w.d) e) ?_
  split
  · exact keeps_ok (.refl _)
  · split
    · exact keeps_ok (.refl _)
    · split
      · cases photonNew (along P.exitC P.exitD w.d) P.exitD P.exitE with
        | none => exact keeps_ub
        | some T =>
          refine keeps_bind (traceLoopE_keeps (h w.q w.r) _ _ _ _ _) fun a s hs => ?_
          dsimp only
          split
          · exact keeps_ok hs
          · exact keeps_ok (hs.trans (recordTempE_keeps ..))
      · exact keeps_ok (.refl _)

theorem reflectBodyE_keeps (D : Descr α) (leak : Bool) (fuel : Nat)
    {trE : Int → Int → Nat → Photon α → EArg → Out ((Int × Nat × Photon α) × EArg)}
    (h : ∀ q r ix P e, KeepsErr e (trE q r ix P e)) (norm : V3 α) (P : Photon α) (e : EArg) :
    KeepsErr e (reflectBodyE D leak fuel trE norm P e) := by
  unfold reflectBodyE
  dsimp only
  split
  · exact keeps_ok (.set _ _)
  · refine keeps_bind ?_ fun w s hs => ?_
    · unfold wallOfE
      split
      · exact traceWallE_keeps ..
      · exact keeps_ok (.refl _)
    · unfold reflectRestE
      dsimp only
      split
      · exact keeps_ok hs
      · split
        · exact keeps_ub
        · split
          · exact keeps_ok (hs.trans (reflEnergiesE_keeps ..))
          · split
            · exact (reflectLeakE_keeps D h _ _ _ _ _).mono (hs.trans (reflEnergiesE_keeps ..))
            · exact keeps_ok (hs.trans (reflEnergiesE_keeps ..))

theorem traceSearchE_keeps (D : Descr α) (capx capy : Nat → α) (P : Photon α) : ∀ (k i : Nat) (cur nrm : V3 α) (e : EArg),
    Later e (traceSearchE D capx capy P k i cur nrm e).2
  | 0, _, _, _, _ => .refl _
  | k + 1, i, cur, nrm, e => by
    unfold traceSearchE
    dsimp only
    repeat' first
      | exact .set _ _
      | exact later_report ..
      | exact (later_report ..).trans (later_boundary (α := α) ..)
      | exact ((later_report ..).trans (later_boundary (α := α) ..)).trans (traceSearchE_keeps D capx capy P k _ _ _ _)
      | split

theorem capilTraceE_keeps (D : Descr α) {reE : V3 α → Photon α → EArg → Out ((Int × Photon α) × EArg)}
    (h : ∀ n P e, KeepsErr e (reE n P e)) (capx capy : Nat → α) (ix : Nat) (P : Photon α) (e : EArg) :
    KeepsErr e (capilTraceE D reE capx capy ix P e) := by
  unfold capilTraceE
  dsimp only
  have hs := traceSearchE_keeps D capx capy { P with exitD := vnorm P.exitD, startD := vnorm P.startD } (D.prof.nmax - ix) ix P.exitC
    ⟨lit 0, lit 0, lit 0⟩ e
  generalize traceSearchE D capx capy { P with exitD := vnorm P.exitD, startD := vnorm P.startD } (D.prof.nmax - ix) ix P.exitC
    ⟨lit 0, lit 0, lit 0⟩ e = H at hs ⊢
  obtain ⟨H, s⟩ := H
  refine KeepsErr.mono hs ?_
  cases H with
  | ret code => exact keeps_ok (.refl _)
  | miss => exact keeps_ok (.refl _)
  | hit i v n cosalfa =>
    dsimp only
    unfold traceHitE
    dsimp only
    split
    · exact keeps_ok (.refl _)
    · split
      · exact keeps_ub
      · split
        · exact keeps_ok (.refl _)
        · have hb : ∀ r : α, Later s (if nShells (α := α) D.n_cap > 0 then boundaryE r s else s) := by
            intro r
            split
            · exact later_boundary (α := α) ..
            · exact .refl _
          refine KeepsErr.mono (hb (interpAt D.prof D.prof.ext (segIdFrom D.prof.z (i + 1) v.z D.prof.nmax) v.z)) ?_
          generalize (if nShells (α := α) D.n_cap > 0 then
            boundaryE (interpAt D.prof D.prof.ext (segIdFrom D.prof.z (i + 1) v.z D.prof.nmax) v.z) s else s) = s'
          split
          · exact keeps_ok (.refl _)
          · exact keeps_bind (h _ _ _) fun a s' hs' => keeps_ok hs'

theorem reflectE_keeps (D : Descr α) (leak : Bool) (fuel : Nat) (k : Nat) : ∀ (norm : V3 α) (P : Photon α) (e : EArg),
    KeepsErr e (reflectE D leak fuel k norm P e) := by
  induction k with
  | zero => intros; exact keeps_fuel
  | succ k ih =>
    intro norm P e
    unfold reflectE
    exact reflectBodyE_keeps D leak fuel (fun q r ix T e => capilTraceE_keeps D ih (capxOf D q r) (capyOf D q r) ix T e) norm P e

theorem traceE_keeps (D : Descr α) (leak : Bool) (fuel k : Nat) (capx capy : Nat → α) (ix : Nat) (P : Photon α) (e : EArg) :
    KeepsErr e (traceE D leak fuel k capx capy ix P e) :=
  capilTraceE_keeps D (reflectE_keeps D leak fuel k) _ _ _ _ _

theorem launchCapE_keeps (D : Descr α) (c : V3 α) (e : EArg) : Later e (launchCapE D c e) := by
  unfold launchCapE
  dsimp only
  split
  · exact later_report ..
  · exact (later_boundary (α := α) ..).trans (later_report ..)

theorem launchBodyE_keeps (lib : Xray α) (D : Descr α) (leak : Bool) (fuel k : Nat) (P : Photon α) (es : List α) (e : EArg) :
    KeepsErr (launchCapE D P.startC (report e (scatfRejects D es))) (launchBodyE lib D leak fuel k P es e) := by
  unfold launchBodyE
  dsimp only
  have hst : (launchInit lib D es P).startC = P.startC := rfl
  rw [hst]
  cases launchCap D P.startC with
  | none => exact keeps_ok (.refl _)
  | some qr =>
    dsimp only
    split
    · split
      · exact keeps_bind' fun _ => keeps_ok (.refl _)
      · split
        · refine keeps_bind (traceWallE_keeps ..) fun w s hs => ?_
          refine KeepsErr.mono hs ?_
          unfold launchWallE
          dsimp only
          split
          · exact keeps_ok (.refl _)
          · split
            · exact keeps_ub
            · split
              · exact keeps_ok (.refl _)
              · split
                · exact keeps_ok (.refl _)
                · refine keeps_bind (traceLoopE_keeps (fun ix P e => traceE_keeps D leak fuel k _ _ ix P e) _ _ _ _ _)
                    fun a s hs => ?_
                  dsimp only
                  split
                  · exact keeps_ok hs
                  · exact keeps_ok (hs.trans (recordTempE_keeps ..))
        · exact keeps_ok (.refl _)
    · unfold launchInsideE
      exact keeps_bind (traceLoopE_keeps (fun ix P e => traceE_keeps D leak fuel k _ _ ix P e) _ _ _ _ _) fun a s hs => keeps_ok hs

/-- **First error wins**: an error the caller's variable already holds is never replaced, and a NULL error argument is fine. -/
theorem launch_keeps_first_error (lib : Xray α) (D : Option (Descr α)) (leak : Bool) (fuel k : Nat) (P : Option (Photon α))
    (es : Option (List α)) (wptr : Bool) (e : EArg) (r : Int × WOut α × Option (Photon α)) (s : EArg)
    (h : launchE lib D leak fuel k P es wptr e = .ok (r, s)) : s = e ∨ ∃ c, s = e.set c := by
  revert h
  suffices hk : KeepsErr e (launchE lib D leak fuel k P es wptr e) from fun h => hk.later _ h
  unfold launchE
  cases P with
  | none => exact keeps_ok (.set _ _)
  | some P =>
    cases es with
    | none => exact keeps_ok (.set _ _)
    | some es =>
      dsimp only
      split
      · exact keeps_ok (.set _ _)
      · cases D with
        | none => exact keeps_ok (.set _ _)
        | some D =>
          exact keeps_bind ((launchBodyE_keeps ..).mono ((later_report ..).trans (launchCapE_keeps ..))) fun a s hs => keeps_ok hs

end Polycap
