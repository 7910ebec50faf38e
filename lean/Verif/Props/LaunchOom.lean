import Verif.Props.LaunchMemExamples
import Verif.Props.SourceFileMemBase

/-!
# A launch that runs out of memory (C97)

Photons without leak calculation, any allocator.
-/
namespace Polycap.LMem
open CNum CM Mem Memo FMem
set_option linter.unusedSectionVars false
set_option linter.unusedSimpArgs false

section heap
variable {B : Type}
theorem load_old (m : Nat → Option B) (b : Nat) (bs : List (Option B)) (o : Nat → Bool) {p : Nat} (hp' : p < b) :
    (load (some p)).run (hp m b bs o) = match m p with | none => none | some c => some (c, hp m b bs o) := by
  rw [run_load]
  simp only [hp, lay_old m b bs hp']
  rfl

theorem upd_lay_old (m : Nat → Option B) (b : Nat) (bs : List (Option B)) {p : Nat} (hp' : p < b) (v : Option B) :
    upd (lay m b bs) p v = lay (upd m p v) b bs := by
  funext x
  simp only [upd, lay]
  by_cases h : x = p
  · subst h; simp [hp']
  · simp [h]

theorem store_old (m : Nat → Option B) (b : Nat) (bs : List (Option B)) (o : Nat → Bool) {p : Nat} (hp' : p < b) (v : B) :
    (store (some p) v).run (hp m b bs o) = match m p with | none => none | some _ => some ((), hp (upd m p (some v)) b bs o) := by
  rw [run_store]
  simp only [hp, lay_old m b bs hp', upd_lay_old m b bs hp']
  rfl

theorem free_old (m : Nat → Option B) (b : Nat) (bs : List (Option B)) (o : Nat → Bool) {p : Nat} (hp' : p < b) :
    (free (some p)).run (hp m b bs o) = match m p with | none => none | some _ => some ((), hp (upd m p none) b bs o) := by
  rw [run_free]
  simp only [hp, lay_old m b bs hp', upd_lay_old m b bs hp']
  rfl

/-- a block requested last and released -/
theorem free_last (m : Nat → Option B) (b : Nat) (bs : List (Option B)) (o : Nat → Bool) (c : B) :
    (free (some (b + bs.length))).run (hp m b (bs ++ [some c]) o) = some ((), hp m b (bs ++ [none]) o) := by
  rw [free_hp]
  simp
end heap

variable {α : Type}

/-- the struct of a photon during a launch whose first request for memory had number `b` -/
def act (b : Nat) : Block α := Ph.blk ⟨none, none, 0, 0, some (b + 1), some (b + 2), some (b + 3), some (b + 4)⟩

/-- the blocks requested since the start of the launch: returned weights, working arrays, axis arrays, `j` released ones -/
def during (W : Option (Block α)) (es ws amu sc : List α) (c1 c2 : Option (Block α)) (j : Nat) : List (Option (Block α)) :=
  [W, some (.doubles es), some (.doubles ws), some (.doubles amu), some (.doubles sc), c1, c2] ++ List.replicate j none

theorem during_snoc (W : Option (Block α)) (es ws amu sc : List α) (c1 c2 : Option (Block α)) (j : Nat) :
    during W es ws amu sc c1 c2 j ++ [none] = during W es ws amu sc c1 c2 (j + 1) := by
  simp [during, List.replicate_succ']

theorem during_len (W : Option (Block α)) (es ws amu sc : List α) (c1 c2 : Option (Block α)) (j : Nat) :
    (during W es ws amu sc c1 c2 j).length = j + 7 := by
  simp [during]

variable [CNum α]

/-- a photon value that fits the working arrays -/
structure Fits (P : Photon α) (es amu sc : List α) : Prop where
  coef : P.coef = true
  e : P.chans.map (·.e) = es
  a : P.chans.map (·.amu) = amu
  s : P.chans.map (·.scatf) = sc

section one
variable (m : Nat → Option (Block α)) (p b : Nat) (o : Nat → Bool) (W c1 c2 : Option (Block α)) (es amu sc : List α)

/-- the heap during a launch -/
def heapAt (P : Photon α) (j : Nat) : Heap (Block α) := hp (upd m p (some (act b))) b (during W es (P.chans.map (·.w)) amu sc c1 c2 j) o

/-- The heap computation does what the value computation does, or a request for memory was refused and it ends with a result `bad`. -/
def Any {A : Type} (run : Out (A × Heap (Block α))) (v : Out A) (ph : A → Photon α) (bad : A → Prop) : Prop :=
  (v = .ub ∧ run = .ub) ∨ (v = .fuel ∧ run = .fuel) ∨
  (∃ a j, v = .ok a ∧ run = .ok (a, heapAt m p b o W c1 c2 es amu sc (ph a) j) ∧ Fits (ph a) es amu sc) ∨
  (∃ a j, run = .ok (a, heapAt m p b o W c1 c2 es amu sc (ph a) j) ∧ Fits (ph a) es amu sc ∧ bad a ∧ ∃ i, b + 7 ≤ i ∧ o i = false)

theorem act_get (hpb : p < b) (bs : List (Option (Block α))) : (getPh (some p)).run (hp (upd m p (some (act b))) b bs o) =
    some (⟨none, none, 0, 0, some (b + 1), some (b + 2), some (b + 3), some (b + 4)⟩, hp (upd m p (some (act b))) b bs o) := by
  simp only [getPh, run_bind, load_old _ _ _ _ hpb, upd_same, act, Ph.blk, run_pure]

theorem readWork_any (ws : List α) (j : Nat) (x : Option (Block α)) (hw : ws.length = es.length) (h1 : amu.length = es.length)
    (h2 : sc.length = es.length) (hne : es ≠ []) (m' : Nat → Option (Block α)) :
    (readWork ⟨none, none, 0, 0, some (b + 1), some (b + 2), some (b + 3), some (b + 4)⟩ es.length).run
      (hp m' b (during W es ws amu sc c1 c2 j ++ [x]) o) = some ((), hp m' b (during W es ws amu sc c1 c2 j ++ [x]) o) := by
  have h0 : es.length ≠ 0 := by cases es <;> simp_all
  simp [readWork, h0, hne, loadArr, run_bind, load_hp, during, hw, h1, h2]

theorem storeW_any (ws ws' : List α) (j : Nat) (x : Option (Block α)) (hw : ws'.length = ws.length) (m' : Nat → Option (Block α)) :
    (storeArr (some (b + 2)) ws').run (hp m' b (during W es ws amu sc c1 c2 j ++ [x]) o) =
      some ((), hp m' b (during W es ws' amu sc c1 c2 j ++ [x]) o) := by
  simp [storeArr, run_bind, load_hp, store_hp, during, hw]

theorem reflect_any (hpb : p < b) (D : Descr α) (fuel k : Nat) (norm : V3 α) (P : Photon α) (j : Nat) (hP : Fits P es amu sc) (hne : es ≠ []) :
    Any m p b o W c1 c2 es amu sc ((reflectM D false fuel k norm (some p) P).run (heapAt m p b o W c1 c2 es amu sc P j))
      (reflect D false fuel k norm P) (·.2) (·.1 = -1) := by
  cases k with
  | zero => exact .inr (.inl ⟨rfl, rfl⟩)
  | succ k =>
  unfold reflectM reflect reflectBodyM reflectBody
  simp only
  have hl : P.chans.length = es.length := by rw [← hP.e]; simp
  have hla : amu.length = es.length := by rw [← hP.a, ← hP.e]; simp
  have hls : sc.length = es.length := by rw [← hP.s, ← hP.e]; simp
  have hnil : P.chans.isEmpty = false := by
    cases hc : P.chans with
    | nil => rw [hc] at hl; cases es <;> simp_all
    | cons => rfl
  by_cases ha : (scalar (vnorm P.exitD) (vnorm norm) <. lit 0) = true
  · simp only [ha, if_true]
    exact .inr (.inr (.inl ⟨_, j, rfl, rfl, ⟨hP.coef, hP.e, hP.a, hP.s⟩⟩))
  simp only [ha, Bool.false_eq_true, if_false]
  have hm := malloc_hp (upd m p (some (act b))) b (during W es (P.chans.map (·.w)) amu sc c1 c2 j) o (.raw P.chans.length)
  rw [during_len] at hm
  cases ho : o (b + (j + 7)) with
  | false =>
    refine .inr (.inr (.inr ⟨(-1, { P with exitD := vnorm P.exitD }), j + 1, ?_, ⟨hP.coef, hP.e, hP.a, hP.s⟩, rfl, _, ?_, ho⟩))
    · simp only [ho, Bool.false_eq_true, if_false, during_snoc] at hm
      rw [heapAt, HM.bind_ofCM hm]
      rfl
    · omega
  | true =>
    simp only [ho, if_true] at hm
    rw [heapAt, HM.bind_ofCM hm]
    simp only [reduceCtorEq, if_false, wallOf, Bool.false_eq_true]
    rw [HM.bind_ofOut rfl, Out.bind_ok, HM.bind_ofCM (show (wallTemp D P.exitC (vnorm (vnorm P.exitD)) ⟨0, lit 0, 0, 0⟩).run _ = some ((), _) from by
      simp only [wallTemp]; rfl)]
    unfold reflectRestM reflectRest
    simp only [renorm, Bool.false_eq_true, if_false, false_and, hP.coef, Bool.not_true, Bool.false_and]
    have hw0 : (P.chans.map (·.w)).length = es.length := by simpa using hl
    rw [HM.bind_ofCM (act_get m p b o hpb _), hl, HM.bind_ofCM (readWork_any b o W c1 c2 es amu sc _ j _ hw0 hla hls hne _)]
    set r := reflEnergies D (vnorm norm) (vnorm P.exitD) (scalar (vnorm P.exitD) (vnorm norm)) false (lit 0) P.chans P.exitE P.exitE with hr
    obtain ⟨s1, s2, s3⟩ := reflEnergies_shape D (vnorm norm) (vnorm P.exitD) (scalar (vnorm P.exitD) (vnorm norm)) false (lit 0) P.chans P.exitE P.exitE
    obtain ⟨k1, k2, k3⟩ := chans_maps D (vnorm norm) (vnorm P.exitD) (scalar (vnorm P.exitD) (vnorm norm)) false (lit 0) P.chans P.exitE P.exitE
    rw [← hr] at s1 s2 s3 k1 k2 k3
    have hw1 : (r.chans.map (·.w)).length = (P.chans.map (·.w)).length := by simpa using s1
    rw [HM.bind_ofCM (storeW_any b o W c1 c2 es amu sc _ _ j _ hw1 _)]
    have hf := free_last (upd m p (some (act b))) b (during W es (r.chans.map (·.w)) amu sc c1 c2 j) o (.raw es.length)
    rw [during_len, during_snoc] at hf
    cases hok : r.ok with
    | false =>
      simp only [Bool.not_false, if_true]
      rw [HM.bind_ofCM hf]
      exact .inr (.inr (.inl ⟨_, j + 1, rfl, rfl, ⟨rfl, k1.trans hP.e, k2.trans hP.a, k3.trans hP.s⟩⟩))
    | true =>
      simp only [Bool.not_true, Bool.false_eq_true, if_false, s3 rfl]
      rw [HM.bind_ofCM (show (Pure.pure () : CM (Block α) Unit).run _ = some ((), _) from rfl), HM.bind_ofCM hf]
      exact .inr (.inr (.inl ⟨_, j + 1, rfl, rfl, ⟨rfl, k1.trans hP.e, k2.trans hP.a, k3.trans hP.s⟩⟩))

theorem Any.heapEq {A : Type} {x y : Out (A × Heap (Block α))} {v : Out A} {ph : A → Photon α} {bad : A → Prop}
    (h : Any m p b o W c1 c2 es amu sc x v ph bad) (e : y = x) : Any m p b o W c1 c2 es amu sc y v ph bad := e ▸ h

theorem trace_any (hpb : p < b) (D : Descr α) (fuel k : Nat) (capx capy : Nat → α) (ix : Nat) (P : Photon α) (j : Nat) (hP : Fits P es amu sc)
    (hne : es ≠ []) :
    Any m p b o W c1 c2 es amu sc ((traceM D false fuel k capx capy (some p) ix P).run (heapAt m p b o W c1 c2 es amu sc P j))
      (trace D false fuel k capx capy ix P) (·.2.2) (·.1 = -1) := by
  unfold traceM trace capilTraceM capilTrace
  simp only
  generalize traceSearch D capx capy _ _ _ _ _ = S
  cases S with
  | ret => exact .inr (.inr (.inl ⟨_, j, rfl, rfl, ⟨hP.coef, hP.e, hP.a, hP.s⟩⟩))
  | miss => exact .inr (.inr (.inl ⟨_, j, rfl, rfl, ⟨hP.coef, hP.e, hP.a, hP.s⟩⟩))
  | hit i v n cosalfa =>
    unfold traceHitM traceHit
    simp only
    by_cases g1 : (fabs cosalfa >. lit 1) = true
    · rw [if_pos g1, if_pos g1]
      exact .inr (.inr (.inl ⟨_, j, rfl, rfl, ⟨hP.coef, hP.e, hP.a, hP.s⟩⟩))
    rw [if_neg g1, if_neg g1]
    by_cases g2 : D.prof.nmax < segIdFrom D.prof.z (i + 1) v.z D.prof.nmax + 1
    · rw [if_pos g2, if_pos g2]
      exact .inl ⟨rfl, rfl⟩
    rw [if_neg g2, if_neg g2]
    by_cases g3 : nShells (α := α) D.n_cap = 0 ∧
      (v.x *. v.x +. v.y *. v.y >=. interpAt D.prof D.prof.ext (segIdFrom D.prof.z (i + 1) v.z D.prof.nmax) v.z) = true
    · rw [if_pos g3, if_pos g3]
      exact .inr (.inr (.inl ⟨_, j, rfl, rfl, ⟨hP.coef, hP.e, hP.a, hP.s⟩⟩))
    rw [if_neg g3, if_neg g3]
    by_cases g4 : nShells (α := α) D.n_cap > 0 ∧
      withinPcBoundary (interpAt D.prof D.prof.ext (segIdFrom D.prof.z (i + 1) v.z D.prof.nmax) v.z) v.x v.y = 0
    · rw [if_pos g4, if_pos g4]
      exact .inr (.inr (.inl ⟨_, j, rfl, rfl, ⟨hP.coef, hP.e, hP.a, hP.s⟩⟩))
    rw [if_neg g4, if_neg g4]
    set Q : Photon α := { P with exitD := vnorm P.exitD, startD := vnorm P.startD, d_travel := P.d_travel +. dist3 v P.exitC, exitC := v } with hQ
    have hR := reflect_any m p b o W c1 c2 es amu sc hpb D fuel k n Q j ⟨hP.coef, hP.e, hP.a, hP.s⟩ hne
    have hch : ∀ (x : Int × Photon α) i, (afterReflect n cosalfa i x).2.2.chans = x.2.chans ∧ (afterReflect n cosalfa i x).2.2.coef = x.2.coef := by
      intro x i
      simp only [afterReflect]
      split
      · exact ⟨rfl, rfl⟩
      split <;> exact ⟨rfl, rfl⟩
    have hfit : ∀ (x : Int × Photon α) i, Fits x.2 es amu sc → Fits (afterReflect n cosalfa i x).2.2 es amu sc := fun x i f =>
      ⟨(hch x i).2.trans f.coef, by rw [(hch x i).1]; exact f.e, by rw [(hch x i).1]; exact f.a, by rw [(hch x i).1]; exact f.s⟩
    rcases hR with ⟨hv, hr⟩ | ⟨hv, hr⟩ | ⟨a, j', hv, hr, hf⟩ | ⟨a, j', hr, hf, hb, hi⟩
    · exact .inl ⟨by rw [hv]; rfl, HM.run_bind_ub hr⟩
    · exact .inr (.inl ⟨by rw [hv]; rfl, HM.run_bind_fuel hr⟩)
    · refine .inr (.inr (.inl ⟨_, j', by rw [hv]; rfl, (HM.run_bind_ok hr).trans ?_, hfit a _ hf⟩))
      simp only [heapAt, (hch a _).1]
      rfl
    · refine .inr (.inr (.inr ⟨afterReflect n cosalfa (segIdFrom D.prof.z (i + 1) v.z D.prof.nmax) a, j', (HM.run_bind_ok hr).trans ?_, hfit a _ hf, ?_, hi⟩))
      · simp only [heapAt, (hch a _).1]
        rfl
      · simp [afterReflect, hb]

theorem traceLoop_any (hpb : p < b) (D : Descr α) (fuel k : Nat) (capx capy : Nat → α) (hne : es ≠ []) : ∀ (n : Nat) (c : Int) (ix : Nat)
    (P : Photon α) (j : Nat), Fits P es amu sc →
    Any m p b o W c1 c2 es amu sc ((traceLoopM (traceM D false fuel k capx capy (some p)) n c ix P).run (heapAt m p b o W c1 c2 es amu sc P j))
      (traceLoop (trace D false fuel k capx capy) n c ix P) (·.2.2) (·.1 = -1) := by
  intro n
  induction n with
  | zero => intro c ix P j hP; exact .inr (.inr (.inl ⟨_, j, rfl, rfl, hP⟩))
  | succ n ih =>
    intro c ix P j hP
    unfold traceLoopM traceLoop
    rcases trace_any m p b o W c1 c2 es amu sc hpb D fuel k capx capy ix P j hP hne with
      ⟨hv, hr⟩ | ⟨hv, hr⟩ | ⟨a, j', hv, hr, hf⟩ | ⟨a, j', hr, hf, hb, hi⟩
    · exact .inl ⟨by rw [hv]; rfl, HM.run_bind_ub hr⟩
    · exact .inr (.inl ⟨by rw [hv]; rfl, HM.run_bind_fuel hr⟩)
    · rw [HM.run_bind_ok hr, hv, Out.bind_ok]
      split
      · exact .inr (.inr (.inl ⟨_, j', rfl, rfl, hf⟩))
      · exact ih _ _ _ _ hf
    · rw [HM.run_bind_ok hr]
      rw [if_pos (by rw [hb]; decide)]
      exact .inr (.inr (.inr ⟨_, j', rfl, hf, hb, hi⟩))
end one

/-! ## The start and the end of a launch -/

/-- a photon struct without arrays -/
def clean (nE nI : Nat) : Block α := Ph.blk ⟨none, none, nE, nI, none, none, none, none⟩

theorem clearOld_any (m : Nat → Option (Block α)) (p b : Nat) (o : Nat → Bool) (hpb : p < b) {nE nI : Nat} (hm : m p = some (clean nE nI)) :
    (clearOld (some p)).run (hp m b [] o) = some ((), hp m b [] o) := by
  have e : upd m p (some (clean nE nI)) = m := by
    funext x
    by_cases h : x = p
    · subst h; simp [hm]
    · rw [upd_other _ _ h]
  simp only [clearOld, getPh, run_bind, load_old _ _ _ _ hpb, hm, clean, Ph.blk, run_pure, dropLeaks, if_true, putPh, store_old _ _ _ _ hpb, upd_same]
  rw [upd_upd]
  simp only [clean, Ph.blk] at e
  rw [e]

/-- a request for memory: the block, or nothing -/
def got (o : Nat → Bool) (i : Nat) (c : Block α) : Option (Block α) := if o i = true then some c else none
/-- what a request for memory gives -/
def gotP (o : Nat → Bool) (i : Nat) : Ptr := if o i = true then some i else none

theorem arrays_fail (m : Nat → Option (Block α)) (p b : Nat) (o : Nat → Bool) (hpb : p < b) {nE nI : Nat} (hm : m p = some (clean nE nI))
    (es : List α) (hf : o (b + 1) = false ∨ o (b + 2) = false) :
    ∃ j, (launchArrays (some p) es).run (hp m b [] o) =
      some ((gotP o b, false), hp (upd m p none) b (got o b (.raw es.length) :: List.replicate j none) o) := by
  simp only [clean, Ph.blk] at hm
  cases h0 : o b <;> cases h1 : o (b + 1) with
  | false =>
    refine ⟨1, ?_⟩
    simp [launchArrays, getPh, putPh, Ph.blk, photonFree, freeLeakArr, run_bind, malloc_hp, load_old _ _ _ _ hpb, store_old _ _ _ _ hpb,
      free_old _ _ _ _ hpb, free_hp, hm, h0, h1, got, gotP, upd_upd]
  | true =>
    refine ⟨2, ?_⟩
    have h2 : o (b + 2) = false := by simpa [h1] using hf
    simp [launchArrays, getPh, putPh, Ph.blk, photonFree, freeLeakArr, run_bind, malloc_hp, load_old _ _ _ _ hpb, store_old _ _ _ _ hpb,
      free_old _ _ _ _ hpb, free_hp, hm, h0, h1, h2, got, gotP, upd_upd]

theorem arrays_ok (m : Nat → Option (Block α)) (p b : Nat) (o : Nat → Bool) (hpb : p < b) {nE nI : Nat} (hm : m p = some (clean nE nI))
    (es : List α) (h1 : o (b + 1) = true) (h2 : o (b + 2) = true) :
    (launchArrays (some p) es).run (hp m b [] o) =
      some ((gotP o b, true), hp (upd m p (some (Ph.blk ⟨none, none, 0, 0, some (b + 1), some (b + 2), none, none⟩))) b
        [got o b (.raw es.length), some (.doubles es), some (.doubles (es.map fun _ => lit 1))] o) := by
  simp only [clean, Ph.blk] at hm
  cases h0 : o b <;>
    simp [launchArrays, getPh, putPh, Ph.blk, storeArr, run_bind, malloc_hp, load_old _ _ _ _ hpb, store_old _ _ _ _ hpb,
      free_old _ _ _ _ hpb, free_hp, load_hp, store_hp, hm, h0, h1, h2, got, gotP, upd_upd]

theorem scatf_fail (m : Nat → Option (Block α)) (p b : Nat) (o : Nat → Bool) (hpb : p < b) (W : Option (Block α)) (es ws amu sc : List α)
    (hf : o (b + 3) = false ∨ o (b + 4) = false) :
    ∃ h', (scatfM (some p) amu sc).run (hp (upd m p (some (Ph.blk ⟨none, none, 0, 0, some (b + 1), some (b + 2), none, none⟩))) b
      [W, some (.doubles es), some (.doubles ws)] o) = some (false, h') := by
  cases h3 : o (b + 3) with
  | false =>
    simp [scatfM, getPh, putPh, Ph.blk, photonFree, freeLeakArr, run_bind, malloc_hp, load_old _ _ _ _ hpb, store_old _ _ _ _ hpb,
      free_old _ _ _ _ hpb, free_hp, h3, upd_upd]
  | true =>
    have h4 : o (b + 4) = false := by simpa [h3] using hf
    simp [scatfM, getPh, putPh, Ph.blk, photonFree, freeLeakArr, run_bind, malloc_hp, load_old _ _ _ _ hpb, store_old _ _ _ _ hpb,
      free_old _ _ _ _ hpb, free_hp, h3, h4, upd_upd]

theorem scatf_ok (m : Nat → Option (Block α)) (p b : Nat) (o : Nat → Bool) (hpb : p < b) (W : Option (Block α)) (es ws amu sc : List α)
    (h3 : o (b + 3) = true) (h4 : o (b + 4) = true) :
    (scatfM (some p) amu sc).run (hp (upd m p (some (Ph.blk ⟨none, none, 0, 0, some (b + 1), some (b + 2), none, none⟩))) b
      [W, some (.doubles es), some (.doubles ws)] o) =
    some (true, hp (upd m p (some (act b))) b [W, some (.doubles es), some (.doubles ws), some (.doubles amu), some (.doubles sc)] o) := by
  simp [scatfM, getPh, putPh, Ph.blk, act, storeArr, run_bind, malloc_hp, load_old _ _ _ _ hpb, store_old _ _ _ _ hpb,
      load_hp, store_hp, h3, h4, upd_upd]

theorem freeWork_any (m : Nat → Option (Block α)) (p b : Nat) (o : Nat → Bool) (hpb : p < b) (W : Option (Block α)) (es ws amu sc : List α)
    (l : List (Option (Block α))) :
    (freeWork (some p)).run (hp (upd m p (some (act b))) b ([W, some (.doubles es), some (.doubles ws), some (.doubles amu), some (.doubles sc)] ++ l) o) =
    some ((), hp (upd m p (some (clean 0 0))) b ([W, none, none, none, none] ++ l) o) := by
  simp [freeWork, getPh, putPh, Ph.blk, act, clean, run_bind, load_old _ _ _ _ hpb, store_old _ _ _ _ hpb, free_hp, upd_upd]

/-- `leave`: everything allocated during the launch is released, except the array for the caller -/
theorem leave_any (m : Nat → Option (Block α)) (p b : Nat) (o : Nat → Bool) (hpb : p < b) (W : Option (Block α)) (x1 x2 : Block α)
    (es ws amu sc : List α) (j : Nat) :
    (leave (some p) (some (b + 5)) (some (b + 6))).run (hp (upd m p (some (act b))) b (during W es ws amu sc (some x1) (some x2) j) o) =
    some ((), hp (upd m p (some (clean 0 0))) b (W :: List.replicate (j + 6) none) o) := by
  have h := freeWork_any m p b o hpb W es ws amu sc (none :: none :: List.replicate j none)
  simp only [leave, run_bind, free_hp, during, List.cons_append, List.nil_append, List.getElem?_cons_succ, List.getElem?_cons_zero, Option.join_some,
    List.set_cons_succ, List.set_cons_zero] at h ⊢
  rw [h]
  rfl

theorem storeW_null (ws : List α) (h : Heap (Block α)) : (storeArr none ws).run h = none := rfl

/-- what follows the axis arrays, polycap-photon.c:576-954 -/
theorem axes_any (m : Nat → Option (Block α)) (p b : Nat) (o : Nat → Bool) (hpb : p < b) (D : Descr α) (fuel k : Nat) (qr : Int × Int)
    (P : Photon α) (es amu sc : List α) (hP : Fits P es amu sc) (hne : es ≠ []) :
    let run := (launchAxesM D false fuel k qr (gotP o b) (some p) P).run (hp (upd m p (some (act b))) b
        [got o b (.raw es.length), some (.doubles es), some (.doubles (P.chans.map (·.w))), some (.doubles amu), some (.doubles sc)] o)
    let v := launchFrom D false fuel k P qr
    (run = .ub ∧ (v = .ub ∨ o b = false)) ∨ (run = .fuel ∧ v = .fuel) ∨
    ∃ c P' X j, run = .ok ((c, P'), hp (upd m p (some (clean 0 0))) b (got o b X :: List.replicate j none) o) ∧
      ((∃ w, v = .ok (c, w, P') ∧ X = WBlk es.length w) ∨ (c = -1 ∧ ∃ i, b + 5 ≤ i ∧ o i = false)) ∧
      ((o (b + 5) = false ∨ o (b + 6) = false) → c = -1 ∧ X = .raw es.length) := by
  intro run v
  have hl : P.chans.length = es.length := by rw [← hP.e]; simp
  have h5 := malloc_hp (upd m p (some (act b))) b [got o b (.raw es.length), some (.doubles es), some (.doubles (P.chans.map (·.w))),
    some (.doubles amu), some (.doubles sc)] o (.raw (D.prof.nmax + 1))
  simp only [List.length_cons, List.length_nil, Nat.reduceAdd, List.cons_append, List.nil_append] at h5
  cases o5 : o (b + 5) with
  | false =>
    simp only [o5, Bool.false_eq_true, if_false] at h5
    refine .inr (.inr ⟨-1, finish P, .raw es.length, 5, ?_, .inr ⟨rfl, _, le_refl _, o5⟩, fun _ => ⟨rfl, rfl⟩⟩)
    have hw := freeWork_any m p b o hpb (got o b (.raw es.length)) es (P.chans.map (·.w)) amu sc [none]
    simp only [List.cons_append, List.nil_append] at hw
    simp only [run, launchAxesM]
    rw [HM.bind_ofCM h5, if_pos rfl, HM.bind_ofCM hw]
    rfl
  | true =>
  simp only [o5, if_true] at h5
  have h6 := malloc_hp (upd m p (some (act b))) b [got o b (.raw es.length), some (.doubles es), some (.doubles (P.chans.map (·.w))),
    some (.doubles amu), some (.doubles sc), some (.raw (D.prof.nmax + 1))] o (.raw (D.prof.nmax + 1))
  simp only [List.length_cons, List.length_nil, Nat.reduceAdd, List.cons_append, List.nil_append] at h6
  cases o6 : o (b + 6) with
  | false =>
    simp only [o6, Bool.false_eq_true, if_false] at h6
    refine .inr (.inr ⟨-1, finish P, .raw es.length, 6, ?_, .inr ⟨rfl, _, by omega, o6⟩, fun _ => ⟨rfl, rfl⟩⟩)
    have hw := freeWork_any m p b o hpb (got o b (.raw es.length)) es (P.chans.map (·.w)) amu sc [some (.raw (D.prof.nmax + 1)), none]
    simp only [List.cons_append, List.nil_append] at hw
    simp only [run, launchAxesM]
    rw [HM.bind_ofCM h5, if_neg (by simp), HM.bind_ofCM h6, if_pos rfl, HM.bind_ofCM hw, HM.bind_ofCM (free_hp _ _ _ _ _)]
    rfl
  | true =>
  simp only [o6, if_true] at h6
  have e0 : hp (upd m p (some (act b))) b [got o b (.raw es.length), some (.doubles es), some (.doubles (P.chans.map (·.w))),
      some (.doubles amu), some (.doubles sc), some (.raw (D.prof.nmax + 1)), some (.raw (D.prof.nmax + 1))] o =
      heapAt m p b o (got o b (.raw es.length)) (some (.raw (D.prof.nmax + 1))) (some (.raw (D.prof.nmax + 1))) es amu sc P 0 := rfl
  rw [e0] at h6
  have hrun : run = (if startsInWall D qr P.startC = true then (HM.ofCM (leave (some p) (some (b + 5)) (some (b + 6))) >>= fun _ => Pure.pure (2, finish P))
      else launchInsideM D false fuel k qr (gotP o b) (some p) (some (b + 5)) (some (b + 6)) P).run
      (heapAt m p b o (got o b (.raw es.length)) (some (.raw (D.prof.nmax + 1))) (some (.raw (D.prof.nmax + 1))) es amu sc P 0) := by
    simp only [run, launchAxesM]
    rw [HM.bind_ofCM h5, if_neg (by simp), HM.bind_ofCM h6, if_neg (by simp)]
    simp only [Bool.false_and, Bool.false_eq_true, if_false]
  by_cases hw : startsInWall D qr P.startC = true
  · rw [if_pos hw] at hrun
    have hv : v = .ok (2, .uninit, finish P) := by simp [v, launchFrom, hw]
    refine .inr (.inr ⟨2, finish P, .raw es.length, 6, ?_, .inl ⟨.uninit, hv, rfl⟩, fun hx => by simp [o5, o6] at hx⟩)
    rw [hrun, heapAt, HM.bind_ofCM (leave_any m p b o hpb _ _ _ es _ amu sc 0)]
    rfl
  · rw [if_neg hw] at hrun
    have hv : v = launchInside D false fuel k qr P := by simp [v, launchFrom, hw]
    simp only [launchInside] at hv
    simp only [launchInsideM] at hrun
    -- the end: weights copied, everything released
    have fin : ∀ (x : Int × Nat × Photon α) (j : Nat), Fits x.2.2 es amu sc →
        let rest := (HM.ofCM (getPh (some p)) >>= fun b1 => HM.ofCM (loadArr b1.w P.chans.length) >>= fun ws => HM.ofCM (storeArr (gotP o b) ws) >>= fun _ =>
          HM.ofCM (leave (some p) (some (b + 5)) (some (b + 6))) >>= fun _ =>
          (Pure.pure ((if x.1 = -1 ∨ x.1 = -3 then -1 else if x.1 = 0 then 0 else 1 : Int), finish x.2.2) : HM (Block α) (Int × Photon α))).run
          (heapAt m p b o (got o b (.raw es.length)) (some (.raw (D.prof.nmax + 1))) (some (.raw (D.prof.nmax + 1))) es amu sc x.2.2 j)
        (o b = false → rest = .ub) ∧ (o b = true → rest = .ok (((if x.1 = -1 ∨ x.1 = -3 then -1 else if x.1 = 0 then 0 else 1 : Int), finish x.2.2),
          hp (upd m p (some (clean 0 0))) b (got o b (.doubles (x.2.2.chans.map (·.w))) :: List.replicate (j + 6) none) o)) := by
      intro x j hx rest
      have hlx : (x.2.2.chans.map (·.w)).length = P.chans.length := by
        rw [hl, ← hx.e]; simp
      have hload : (loadArr (some (b + 2)) P.chans.length).run (heapAt m p b o (got o b (.raw es.length)) (some (.raw (D.prof.nmax + 1)))
          (some (.raw (D.prof.nmax + 1))) es amu sc x.2.2 j) = some (x.2.2.chans.map (·.w), heapAt m p b o (got o b (.raw es.length))
          (some (.raw (D.prof.nmax + 1))) (some (.raw (D.prof.nmax + 1))) es amu sc x.2.2 j) := by
        rw [← hlx]
        simp [heapAt, loadArr, run_bind, load_hp, during]
      simp only [rest]
      rw [heapAt, HM.bind_ofCM (act_get m p b o hpb _), ← heapAt, HM.bind_ofCM hload]
      constructor
      · intro hob
        rw [gotP, hob]
        rfl
      · intro hob
        have hs : (storeArr (gotP o b) (x.2.2.chans.map (·.w))).run (heapAt m p b o (got o b (.raw es.length)) (some (.raw (D.prof.nmax + 1)))
          (some (.raw (D.prof.nmax + 1))) es amu sc x.2.2 j) = some ((), heapAt m p b o (got o b (.doubles (x.2.2.chans.map (·.w))))
          (some (.raw (D.prof.nmax + 1))) (some (.raw (D.prof.nmax + 1))) es amu sc x.2.2 j) := by
          have : x.2.2.chans.length ≤ es.length := by rw [← hl, ← hlx]; simp
          simp [heapAt, storeArr, run_bind, load_hp0, store_hp0, during, gotP, got, hob, this]
        rw [HM.bind_ofCM hs, heapAt, HM.bind_ofCM (leave_any m p b o hpb _ _ _ es _ amu sc j)]
        rfl
    rcases traceLoop_any m p b o (got o b (.raw es.length)) (some (.raw (D.prof.nmax + 1))) (some (.raw (D.prof.nmax + 1))) es amu sc hpb D fuel k
      (axX D qr) (axY D qr) hne (D.prof.nmax + 1) 0 (segIdFrom D.prof.z 0 P.startC.z (D.prof.nmax + 1)) P 0 hP with
      ⟨g, hr⟩ | ⟨g, hr⟩ | ⟨x, j, g, hr, hf⟩ | ⟨x, j, hr, hf, hb, hi⟩
    · exact .inl ⟨by rw [hrun, HM.run_bind_ub hr], .inl (by rw [hv, g]; rfl)⟩
    · exact .inr (.inl ⟨by rw [hrun, HM.run_bind_fuel hr], by rw [hv, g]; rfl⟩)
    · rw [HM.run_bind_ok hr] at hrun
      rw [g, Out.bind_ok] at hv
      cases hob : o b with
      | false => exact .inl ⟨by rw [hrun, (fin x j hf).1 hob], .inr rfl⟩
      | true => exact .inr (.inr ⟨_, _, .doubles (x.2.2.chans.map (·.w)), j + 6, by rw [hrun]; exact (fin x j hf).2 hob, .inl ⟨_, hv, rfl⟩,
          fun hx => by simp [o5, o6] at hx⟩)
    · rw [HM.run_bind_ok hr] at hrun
      cases hob : o b with
      | false => exact .inl ⟨by rw [hrun, (fin x j hf).1 hob], .inr rfl⟩
      | true =>
        obtain ⟨i, hi, ho⟩ := hi
        exact .inr (.inr ⟨_, _, .doubles (x.2.2.chans.map (·.w)), j + 6, by rw [hrun]; exact (fin x j hf).2 hob, .inr ⟨by simp [hb], i, by omega, ho⟩,
          fun hx => by simp [o5, o6] at hx⟩)

/-! ## The property -/

/-- What a launch leaves of the memory `h`: the photon's struct at `p` is `q` (`none`: released), the array for the caller is `wp`, holding `X`
(NULL if it could not be had); everything else is as before, nothing else is allocated. -/
structure Left (h h' : Heap (Block α)) (p : Nat) (q : Option (Block α)) (wp : Ptr) (X : Block α) : Prop where
  photon : h'.mem p = q
  weights : (h.orc h.next = true ∧ wp = some h.next ∧ h'.mem h.next = some X) ∨ (h.orc h.next = false ∧ wp = none ∧ h'.mem h.next = none)
  others : ∀ a, a ≠ p → a ≠ h.next → h'.mem a = h.mem a

theorem left_of {h : Heap (Block α)} (wf : h.WF) {p : Nat} (hpb : p < h.next) (q : Option (Block α)) (X : Block α) (j : Nat) :
    Left h (hp (upd h.mem p q) h.next (got h.orc h.next X :: List.replicate j none) h.orc) p q (gotP h.orc h.next) X where
  photon := by simp [hp, lay, hpb]
  weights := by
    cases ho : h.orc h.next
    · exact .inr ⟨rfl, by simp [gotP, ho], by simp [hp, lay, got, ho]⟩
    · exact .inl ⟨rfl, by simp [gotP, ho], by simp [hp, lay, got, ho]⟩
  others a h1 h2 := by
    simp only [hp, lay]
    split
    · exact upd_other _ _ h1
    · rename_i hx
      rw [wf a (by omega)]
      obtain ⟨k, hk⟩ : ∃ k, a - h.next = k + 1 := ⟨a - h.next - 1, by omega⟩
      rw [hk, List.getElem?_cons_succ, List.getElem?_replicate]
      split <;> rfl

/-- **C97.**  `polycap_photon_launch` without leak calculation, for a photon that has not been launched with leaks before, whatever requests for
memory are granted (`h.orc i`: request number `i` is).  With `n` the number of the first request:

* if the second or third request is refused the call returns −1, the photon **has been released**, the caller's array stays;
* otherwise, if the fourth or fifth is refused the behaviour is undefined (the photon has been released and is used);
* otherwise the call returns; it leaves the photon without arrays, the caller's array and nothing else, and it returns what it would have returned with
  enough memory, or −1 after a request was refused — except that the behaviour may be undefined when the first request was refused (the weights
  are copied to NULL) or when it would be anyway.  Refused arrays for the capillary axis (sixth and seventh request) always give −1. -/
theorem launch_out_of_memory_partial (lib : Xray α) (D : Descr α) (fuel k : Nat) (es : List α) (hes : es ≠ []) (hb : es.any energyBad = false)
    (hs : scatfRejects D es = false) {h : Heap (Block α)} (wf : h.WF) {p nE nI : Nat} (hpm : h.mem p = some (clean nE nI)) (P : Photon α) :
    let n := h.next
    let run := (launchM lib (some D) false fuel k (some p) P (some es) true).run h
    let v := launch lib (some D) false fuel k (some P) (some es) true
    ((h.orc (n + 1) = false ∨ h.orc (n + 2) = false) → ∃ wp P' h', run = .ok ((-1, some wp, P'), h') ∧ Left h h' p none wp (.raw es.length)) ∧
    (h.orc (n + 1) = true → h.orc (n + 2) = true → (h.orc (n + 3) = false ∨ h.orc (n + 4) = false) → run = .ub) ∧
    (h.orc (n + 1) = true → h.orc (n + 2) = true → h.orc (n + 3) = true → h.orc (n + 4) = true →
      (run = .ub ∧ (v = .ub ∨ h.orc n = false)) ∨ (run = .fuel ∧ v = .fuel) ∨
      ∃ c wp P' h' X, run = .ok ((c, some wp, P'), h') ∧ Left h h' p (some (clean 0 0)) wp X ∧
        ((∃ w, v = .ok (c, w, some P') ∧ X = WBlk es.length w) ∨ (c = -1 ∧ ∃ i, n + 5 ≤ i ∧ h.orc i = false)) ∧
        ((h.orc (n + 5) = false ∨ h.orc (n + 6) = false) → launchCap D P.startC ≠ none → c = -1 ∧ X = .raw es.length)) := by
  intro n run v
  have hpb : p < h.next := live_lt wf hpm
  have hg : (es.isEmpty || es.any energyBad || !true) = false := by cases es <;> simp_all
  have hrun : run = (launchBodyM lib D false fuel k (some p) P es >>= fun x => Pure.pure (x.1, some x.2.1, x.2.2)).run (hp h.mem h.next [] h.orc) := by
    simp only [run, launchM, reduceCtorEq, if_false, hg, Bool.false_eq_true]
    conv_lhs => rw [hp_nil h wf]
    rw [HM.bind_ofCM (clearOld_any h.mem p h.next h.orc hpb hpm)]
  have hv : v = (launchBody lib D false fuel k P es >>= fun x => .ok (x.1, x.2.1, some x.2.2)) := by
    simp only [v, launch, hg, Bool.false_eq_true, if_false]
  refine ⟨fun hf => ?_, fun h1 h2 hf => ?_, fun h1 h2 h3 h4 => ?_⟩
  · obtain ⟨j, r⟩ := arrays_fail h.mem p h.next h.orc hpb hpm es hf
    refine ⟨gotP h.orc h.next, finish (launchInit lib D es P), _, ?_, left_of wf hpb none (.raw es.length) j⟩
    rw [hrun]
    refine (HM.run_bind_ok (a := (-1, gotP h.orc h.next, finish (launchInit lib D es P))) ?_).trans rfl
    simp only [launchBodyM]
    rw [HM.bind_ofCM r]
    rfl
  · rw [hrun]
    apply HM.run_bind_ub
    simp only [launchBodyM]
    rw [HM.bind_ofCM (arrays_ok h.mem p h.next h.orc hpb hpm es h1 h2)]
    simp only [Bool.not_true, Bool.false_eq_true, if_false, hs]
    obtain ⟨h', r⟩ := scatf_fail h.mem p h.next h.orc hpb (got h.orc h.next (.raw es.length)) es (es.map fun _ => lit 1)
      ((launchInit lib D es P).chans.map (·.amu)) ((launchInit lib D es P).chans.map (·.scatf)) hf
    rw [HM.bind_ofCM r]
    rfl
  · have e1 : (launchInit lib D es P).chans.map (·.e) = es := by simp [launchInit, Function.comp_def]
    have e2 : (launchInit lib D es P).chans.map (·.w) = es.map (fun _ => lit 1) := by simp [launchInit, Function.comp_def]
    have hco : (launchInit lib D es P).coef = true := by simp [launchInit, hs]
    have q1 : (launchInit lib D es P).startC = P.startC := rfl
    rw [launchBody_eq] at hv
    set Q := launchInit lib D es P with hQ
    have hfit : Fits Q es (Q.chans.map (·.amu)) (Q.chans.map (·.scatf)) := ⟨hco, e1, rfl, rfl⟩
    have hR : (launchBodyM lib D false fuel k (some p) P es).run (hp h.mem h.next [] h.orc) = ((match launchCap D Q.startC with
        | none => HM.ofCM (freeWork (some p)) >>= fun _ => Pure.pure (-2, gotP h.orc h.next, finish Q)
        | some qr => launchAxesM D false fuel k qr (gotP h.orc h.next) (some p) Q >>= fun y => Pure.pure (y.1, gotP h.orc h.next, y.2)) :
          HM (Block α) (Int × Ptr × Photon α)).run
        (hp (upd h.mem p (some (act h.next))) h.next [got h.orc h.next (.raw es.length), some (.doubles es),
          some (.doubles (Q.chans.map (·.w))), some (.doubles (Q.chans.map (·.amu))), some (.doubles (Q.chans.map (·.scatf)))] h.orc) := by
      simp only [launchBodyM]
      rw [HM.bind_ofCM (arrays_ok h.mem p h.next h.orc hpb hpm es h1 h2)]
      simp only [Bool.not_true, Bool.false_eq_true, if_false, hs]
      rw [HM.bind_ofCM (scatf_ok h.mem p h.next h.orc hpb _ es _ _ _ h3 h4)]
      simp only [Bool.not_true, Bool.false_eq_true, if_false, ← hQ, e2]
      rfl
    cases hc : launchCap D Q.startC with
    | none =>
      rw [hc] at hR hv
      simp only [Out.bind_ok] at hv
      have hw := freeWork_any h.mem p h.next h.orc hpb (got h.orc h.next (.raw es.length)) es (Q.chans.map (·.w)) (Q.chans.map (·.amu))
        (Q.chans.map (·.scatf)) []
      simp only [List.append_nil] at hw
      refine .inr (.inr ⟨-2, gotP h.orc h.next, finish Q, _, .raw es.length, ?_, left_of wf hpb (some (clean 0 0)) (.raw es.length) 4,
        .inl ⟨.uninit, hv, rfl⟩, fun _ hx => absurd (q1 ▸ hc) hx⟩)
      rw [hrun]
      refine (HM.run_bind_ok (a := (-2, gotP h.orc h.next, finish Q)) ?_).trans rfl
      rw [hR]
      simp only
      rw [HM.bind_ofCM hw]
      rfl
    | some qr =>
      rw [hc] at hR hv
      simp only at hR hv
      rcases axes_any h.mem p h.next h.orc hpb D fuel k qr Q es _ _ hfit hes with ⟨g, ho⟩ | ⟨g, g'⟩ | ⟨c, P', X, j, g, ho, ho'⟩
      · refine .inl ⟨?_, ho.imp (fun g' => by rw [hv, g']; rfl) id⟩
        rw [hrun]
        apply HM.run_bind_ub
        rw [hR]
        exact HM.run_bind_ub g
      · refine .inr (.inl ⟨?_, by rw [hv, g']; rfl⟩)
        rw [hrun]
        apply HM.run_bind_fuel
        rw [hR]
        exact HM.run_bind_fuel g
      · refine .inr (.inr ⟨c, gotP h.orc h.next, P', _, X, ?_, left_of wf hpb (some (clean 0 0)) X j, ?_, fun hx _ => ho' hx⟩)
        · rw [hrun]
          refine (HM.run_bind_ok (a := (c, gotP h.orc h.next, P')) ?_).trans rfl
          rw [hR]
          exact HM.run_bind_ok g
        · rcases ho with ⟨w, g', hX⟩ | ho
          · exact .inl ⟨w, by rw [hv, g']; rfl, hX⟩
          · exact .inr ho

/-- **C97, the leak calculation.**  The photon that follows a leak into the next capillary (its struct, four arrays and two axis arrays) either
is complete or, when a request for memory is refused, leaves nothing — except that the behaviour is undefined when its struct or one of the two
arrays of coefficients is refused. -/
theorem temp_photon_memory_partial {h : Heap (Block α)} (wf : h.WF) (en w amu sc : List α) (nax : Nat) :
    let n := h.next
    let run := (tempNew en w amu sc nax).run h
    (h.orc n = false → run = none) ∧
    (h.orc n = true → h.orc (n + 1) = true → h.orc (n + 2) = true → (h.orc (n + 3) = false ∨ h.orc (n + 4) = false) → run = none) ∧
    (h.orc n = true → (h.orc (n + 1) = false ∨ h.orc (n + 2) = false ∨
        (h.orc (n + 3) = true ∧ h.orc (n + 4) = true ∧ (h.orc (n + 5) = false ∨ h.orc (n + 6) = false))) →
      ∃ h', run = some (none, h') ∧ h'.mem = h.mem) ∧
    ((∀ i ≤ 6, h.orc (n + i) = true) → ∃ h', run = some (some (some n, some (n + 5), some (n + 6)), h') ∧ ∀ a < n, h'.mem a = h.mem a) := by
  intro n run
  have hm : ∀ k, (hp h.mem h.next (List.replicate k none) h.orc).mem = h.mem := by
    intro k
    funext a
    simp only [hp, lay]
    split
    · rfl
    · rw [wf a (by omega), List.getElem?_replicate]
      split <;> rfl
  have hrun : run = (tempNew en w amu sc nax).run (hp h.mem h.next [] h.orc) := by rw [← hp_nil h wf]
  have hn : n = h.next := rfl
  rw [hn]
  clear_value run n
  subst hrun
  refine ⟨fun h0 => ?_, fun h0 h1 h2 hf => ?_, fun h0 hf => ?_, fun hA => ?_⟩
  · simp [tempNew, run_bind, malloc_hp, h0]
  · cases h3 : h.orc (h.next + 3) with
    | false =>
      simp [tempNew, scatfM, getPh, putPh, Ph.blk, photonFree, freeLeakArr, storeArr, run_bind, malloc_hp, load_hp, load_hp0, store_hp, store_hp0,
        free_hp, free_hp0, h0, h1, h2, h3]
    | true =>
      have h4 : h.orc (h.next + 4) = false := by simpa [h3] using hf
      simp [tempNew, scatfM, getPh, putPh, Ph.blk, photonFree, freeLeakArr, storeArr, run_bind, malloc_hp, load_hp, load_hp0, store_hp, store_hp0,
        free_hp, free_hp0, h0, h1, h2, h3, h4]
  · cases h1 : h.orc (h.next + 1) with
    | false =>
      refine ⟨_, ?_, hm 2⟩
      simp [tempNew, scatfM, getPh, putPh, Ph.blk, photonFree, freeLeakArr, storeArr, run_bind, malloc_hp, load_hp, load_hp0, store_hp, store_hp0,
        free_hp, free_hp0, h0, h1]
    | true =>
    cases h2 : h.orc (h.next + 2) with
    | false =>
      refine ⟨_, ?_, hm 3⟩
      simp [tempNew, scatfM, getPh, putPh, Ph.blk, photonFree, freeLeakArr, storeArr, run_bind, malloc_hp, load_hp, load_hp0, store_hp, store_hp0,
        free_hp, free_hp0, h0, h1, h2]
    | true =>
    obtain ⟨h3, h4, hf⟩ : h.orc (h.next + 3) = true ∧ h.orc (h.next + 4) = true ∧ (h.orc (h.next + 5) = false ∨ h.orc (h.next + 6) = false) := by
      simpa [h1, h2] using hf
    cases h5 : h.orc (h.next + 5) with
    | false =>
      refine ⟨_, ?_, hm 6⟩
      simp [tempNew, scatfM, getPh, putPh, Ph.blk, photonFree, freeLeakArr, storeArr, run_bind, malloc_hp, load_hp, load_hp0, store_hp, store_hp0,
        free_hp, free_hp0, h0, h1, h2, h3, h4, h5]
    | true =>
      have h6 : h.orc (h.next + 6) = false := by simpa [h5] using hf
      refine ⟨_, ?_, hm 7⟩
      simp [tempNew, scatfM, getPh, putPh, Ph.blk, photonFree, freeLeakArr, storeArr, run_bind, malloc_hp, load_hp, load_hp0, store_hp, store_hp0,
        free_hp, free_hp0, h0, h1, h2, h3, h4, h5, h6]
  · have h0 := hA 0 (by omega)
    have h1 := hA 1 (by omega)
    have h2 := hA 2 (by omega)
    have h3 := hA 3 (by omega)
    have h4 := hA 4 (by omega)
    have h5 := hA 5 (by omega)
    have h6 := hA 6 (by omega)
    simp only [Nat.add_zero] at h0
    simp [tempNew, scatfM, getPh, putPh, Ph.blk, photonFree, freeLeakArr, storeArr, run_bind, malloc_hp, load_hp, load_hp0, store_hp, store_hp0,
        free_hp, free_hp0, h0, h1, h2, h3, h4, h5, h6]
    intro a ha
    simp [hp, lay, ha]

/-- the second axis array of a launch cannot be had: −1, and only the photon and the caller's array are left -/
example : ∃ wp P' h' X, (launchM exLib (some exD) false 0 1 (some 0) (exP ⟨0, 0, 0⟩ ⟨0, 0, 1⟩ 0) (some [10]) true).run (newHeap fun i => i != 7) =
    .ok ((-1, some wp, P'), h') ∧ Left (newHeap fun i => i != 7) h' 0 (some (clean 0 0)) wp X := by
  obtain ⟨Pv, hl, -⟩ := ex_straight false 0
  have hs : scatfRejects exD [(10:ℝ)] = false := ex_scatf
  have hc : launchCap exD (exP ⟨0, 0, 0⟩ ⟨0, 0, 1⟩ 0).startC ≠ none := by
    rw [show (exP ⟨0, 0, 0⟩ ⟨0, 0, 1⟩ 0).startC = ⟨0, 0, 0⟩ from rfl, ex_cap (by simp) (by simp)]; simp
  have L := (launch_out_of_memory_partial exLib exD 0 1 [10] (by simp) (by simp [energyBad]; norm_num) hs (newHeap_wf fun i => i != 7)
    (p := 0) (nE := 0) (nI := 0) (by simp [newHeap, clean]) (exP ⟨0, 0, 0⟩ ⟨0, 0, 1⟩ 0)).2.2 rfl rfl rfl rfl
  rw [hl] at L
  rcases L with ⟨-, h | h⟩ | ⟨-, h⟩ | ⟨c, wp, P', h', X, r, l, -, hx⟩
  · cases h
  · simp [newHeap] at h
  · cases h
  · obtain ⟨rfl, -⟩ := hx (.inr rfl) hc
    exact ⟨wp, P', h', X, r, l⟩

end Polycap.LMem
