import Verif.Props.LaunchMemOps
import Verif.Props.LeakShape

/-!
# Memory of a launch (C81): tracing on the heap computes what tracing on values computes
-/
namespace Polycap

namespace HM
variable {A B C : Type}

theorem run_bind_ok {x : HM B A} {f : A → HM B C} {h h' : Heap B} {a : A} (e : x.run h = .ok (a, h')) : (x >>= f).run h = (f a).run h' := by
  show (x.run h >>= fun y => (f y.1).run y.2) = _
  rw [e]; rfl
theorem run_bind_ub {x : HM B A} {f : A → HM B C} {h : Heap B} (e : x.run h = .ub) : (x >>= f).run h = .ub := by
  show (x.run h >>= fun y => (f y.1).run y.2) = _
  rw [e]; rfl
theorem run_bind_fuel {x : HM B A} {f : A → HM B C} {h : Heap B} (e : x.run h = .fuel) : (x >>= f).run h = .fuel := by
  show (x.run h >>= fun y => (f y.1).run y.2) = _
  rw [e]; rfl
@[simp] theorem run_pure (a : A) (h : Heap B) : (Pure.pure a : HM B A).run h = .ok (a, h) := rfl
theorem run_ofCM {x : CM B A} {h h' : Heap B} {a : A} (e : x.run h = some (a, h')) : (ofCM x).run h = .ok (a, h') := by
  simp only [ofCM, e]
theorem run_ofCM_ub {x : CM B A} {h : Heap B} (e : x.run h = none) : (ofCM x).run h = .ub := by
  simp only [ofCM, e]
theorem bind_ofCM {x : CM B A} {f : A → HM B C} {h h' : Heap B} {a : A} (e : x.run h = some (a, h')) : (ofCM x >>= f).run h = (f a).run h' :=
  run_bind_ok (run_ofCM e)
theorem bind_ofOut {x : Out A} {f : A → HM B C} {h : Heap B} {a : A} (e : x = .ok a) : (ofOut x >>= f).run h = (f a).run h := by
  subst e; rfl
theorem bind_ofOut_ub {f : A → HM B C} {h : Heap B} : (ofOut .ub >>= f).run h = .ub := rfl
theorem bind_ofOut_fuel {f : A → HM B C} {h : Heap B} : (ofOut .fuel >>= f).run h = .fuel := rfl
end HM

namespace LMem
open CNum CM Mem Memo

variable {α : Type}

/-- The heap computation with result `run`, started in `h` where the blocks `F` are of concern, agrees with the value `v`: the same value, a
photon at `p` holding what the value says, and nothing else left of `F` but what that photon owns. -/
def Agree {A : Type} (ne p : Nat) (act : Bool) (h : Heap (Block α)) (F : List Nat) (run : Out (A × Heap (Block α))) (v : Out A) (ph : A → Photon α) :
    Prop :=
  match v with
  | .ok a => ∃ h' b' xs', run = .ok (a, h') ∧ Own h'.mem ne p act b' xs' (fun _ => 0) (ph a) ∧ Frame F (foot p b' xs') h h'
  | .ub => run = .ub
  | .fuel => run = .fuel

/-- the heap computation `x` on the photon `p` computes `v`, whatever else is on the heap -/
def Sim {A : Type} (ne p : Nat) (x : HM (Block α) A) (v : Out A) (ph : A → Photon α) (P : Photon α) : Prop :=
  ∀ h b xs, h.WF → Ample h → Own h.mem ne p true b xs (fun _ => 0) P → Agree ne p true h (foot p b xs) (x.run h) v ph

theorem Sim.ret {A : Type} {ne p : Nat} (a : A) (ph : A → Photon α) {P : Photon α} (hp : ∀ h b xs, Own h ne p true b xs (fun _ => 0) P →
    Own h ne p true b xs (fun _ => 0) (ph a)) : Sim ne p (Pure.pure a) (.ok a) ph P :=
  fun h b xs wf _ o => ⟨h, b, xs, rfl, hp _ _ _ o, Frame.refl _ wf⟩

theorem Frame.ext {B : Type} {A A' C C' R : List Nat} {h h' : Heap B} (f : Frame A A' h h') (h1 : ∀ a, a ∈ C ↔ a ∈ A ∨ a ∈ R)
    (h2 : ∀ a, a ∈ C' ↔ a ∈ A' ∨ a ∈ R) : Frame C C' h h' :=
  (f.add R).congr (fun a => by rw [h1, List.mem_append]) (fun a => by rw [h2, List.mem_append])

/-- fields that the memory does not show may be anything -/
theorem Own.same {m : Nat → Option (Block α)} {ne p : Nat} {act : Bool} {b : Ph} {xs : Bool → List (Nat × Nat)} {r : Bool → Nat} {P P' : Photon α}
    (o : Own m ne p act b xs r P) (hx : P'.ext = P.ext) (hi : P'.int = P.int) (hc : P'.chans = P.chans) (hco : P'.coef = P.coef) :
    Own m ne p act b xs r P' := by
  have lk : ∀ s, leaksOf P' s = leaksOf P s := fun s => by cases s <;> simp [leaksOf, hx, hi]
  exact ⟨o.blk, fun s => by rw [lk]; exact o.arrs s, fun s => by rw [lk]; exact o.cnt s, fun s => by rw [lk]; exact o.wts s, by rw [hc]; exact o.nch,
    by rw [hc]; exact o.en, by rw [hc]; exact o.w, by rw [hc, hco]; exact o.amu, by rw [hc, hco]; exact o.sc, o.one⟩

/-- a step done before -/
theorem Agree.after {A : Type} {ne p : Nat} {act : Bool} {h h1 : Heap (Block α)} {F F1 : List Nat} {run : Out (A × Heap (Block α))} {v : Out A}
    {ph : A → Photon α} (g : Agree ne p act h1 F1 run v ph) (wf : h.WF) (f : Frame F F1 h h1) : Agree ne p act h F run v ph := by
  cases v with
  | ok a => obtain ⟨h', b', xs', r, o, f'⟩ := g; exact ⟨h', b', xs', r, o, f.trans wf f'⟩
  | ub => exact g
  | fuel => exact g

variable [CNum α]

omit [CNum α] in
theorem traceLoop_sim {ne t : Nat} {trM : Nat → Photon α → HM (Block α) (Int × Nat × Photon α)} {tr : Nat → Photon α → Out (Int × Nat × Photon α)}
    (H : ∀ ix T, Sim ne t (trM ix T) (tr ix T) (·.2.2) T) : ∀ (k : Nat) (c : Int) (ix : Nat) (T : Photon α),
    Sim ne t (traceLoopM trM k c ix T) (traceLoop tr k c ix T) (·.2.2) T := by
  intro k
  induction k with
  | zero => intro c ix T; exact Sim.ret (c, ix, T) _ fun _ _ _ o => o
  | succ k ih =>
    intro c ix T h b xs wf am o
    have g := H ix T h b xs wf am o
    simp only [traceLoopM, traceLoop]
    cases hv : tr ix T with
    | ub => rw [hv] at g; exact HM.run_bind_ub g
    | fuel => rw [hv] at g; exact HM.run_bind_fuel g
    | ok x =>
      rw [hv] at g
      obtain ⟨h1, b1, xs1, r1, o1, f1⟩ := g
      rw [HM.run_bind_ok r1, Out.bind_ok]
      by_cases hx : x.1 ≠ 1
      · rw [if_pos hx, if_pos hx]
        exact ⟨h1, b1, xs1, rfl, o1, f1⟩
      · rw [if_neg hx, if_neg hx]
        exact (ih x.1 x.2.1 x.2.2 h1 b1 xs1 f1.wf (am.frame f1) o1).after wf f1

/-- the temporary vector of the wall tracing is gone when it is over -/
theorem wallTemp_run {h : Heap (Block α)} (wf : h.WF) (am : Ample h) (D : Descr α) (c d : V3 α) (w : Wall α) :
    ∃ h', (wallTemp D c d w).run h = some ((), h') ∧ Frame [] [] h h' := by
  have base : ∃ h', (Pure.pure () : CM (Block α) Unit).run h = some ((), h') ∧ Frame [] [] h h' := ⟨h, rfl, Frame.refl _ wf⟩
  unfold wallTemp
  split
  · split
    · obtain ⟨h1, r1, m1, f1⟩ := malloc_run wf am (.raw 0)
      obtain ⟨h2, r2, f2⟩ := free_run f1.wf m1
      refine ⟨h2, ?_, f1.trans wf f2⟩
      rw [run_bind_some r1]
      simp only [reduceCtorEq, if_false]
      exact r2
    · exact base
  · exact base

omit [CNum α] in
theorem zip_maps : ∀ (cs : List (Chan α)) (ws : List α), ws.length = cs.length →
    (List.zipWith (fun c w => ({ c with w := w } : Chan α)) cs ws).length = cs.length ∧
    (List.zipWith (fun c w => ({ c with w := w } : Chan α)) cs ws).map (·.w) = ws ∧
    (List.zipWith (fun c w => ({ c with w := w } : Chan α)) cs ws).map (·.e) = cs.map (·.e) ∧
    (List.zipWith (fun c w => ({ c with w := w } : Chan α)) cs ws).map (·.amu) = cs.map (·.amu) ∧
    (List.zipWith (fun c w => ({ c with w := w } : Chan α)) cs ws).map (·.scatf) = cs.map (·.scatf)
  | [], [], _ => by simp
  | [], _ :: _, h => by simp at h
  | _ :: _, [], h => by simp at h
  | c :: cs, w :: ws, h => by
    obtain ⟨h1, h2, h3, h4, h5⟩ := zip_maps cs ws (by simpa using h)
    simp [h2, h3, h4, h5]
    simp at h
    omega

/-- the photon that came out of a neighbouring capillary is recorded -/
theorem recordTemp_run {h : Heap (Block α)} (wf : h.WF) (am : Ample h) (D : Descr α) {ne p t : Nat} {b bt : Ph} {xs xt : Bool → List (Nat × Nat)}
    {P T : Photon α} (o : Own h.mem ne p true b xs (fun _ => 0) P) (ot : Own h.mem ne t true bt xt (fun _ => 0) T) (c : Int) :
    ∃ h' b' xs', (recordTempM D (some p) (some t) P T c).run h = some (true, h') ∧
      Own h'.mem ne p true b' xs' (fun _ => 0) (recordTemp D P T c) ∧ Frame (foot p b xs) (foot p b' xs') h h' := by
  unfold recordTempM recordTemp
  by_cases hc : c = 1 ∨ c = -2
  · rw [if_pos hc, if_pos hc]
    simp only
    rw [run_bind_some (getPh_run ot.blk)]
    obtain ⟨a, ha, hm⟩ := ot.w
    have hl : ((T.chans.map (·.w)) : List α).length = ne := by rw [List.length_map]; exact ot.nch rfl
    have hn : P.chans.length = ne := o.nch rfl
    rw [hn, ha]
    generalize withinPcBoundary (D.prof.ext D.prof.nmax) (toExit D.prof T.exitC T.exitD).x (toExit D.prof T.exitC T.exitD).y = bd
    by_cases h0 : bd = 0
    · rw [if_pos h0, if_pos h0]
      obtain ⟨h', b', xs', r, -, o', f⟩ := addLeak_run wf am o true ⟨toExit D.prof T.exitC T.exitD, P.exitD, P.exitE, P.i_refl, T.chans.map (·.w)⟩ hl hm
      exact ⟨h', b', xs', r, o', f⟩
    · rw [if_neg h0, if_neg h0]
      by_cases h1 : bd = 1
      · rw [if_pos h1, if_pos h1]
        obtain ⟨h', b', xs', r, -, o', f⟩ := addLeak_run wf am o false ⟨toExit D.prof T.exitC T.exitD, P.exitD, P.exitE, P.i_refl, T.chans.map (·.w)⟩ hl hm
        exact ⟨h', b', xs', r, o', f⟩
      · rw [if_neg h1, if_neg h1]
        exact ⟨h, b, xs, rfl, o, Frame.refl _ wf⟩
  · rw [if_neg hc, if_neg hc]
    exact ⟨h, b, xs, rfl, o, Frame.refl _ wf⟩

theorem reflectLeak_sim {ne p : Nat} (D : Descr α) {trM : Int → Int → Ptr → Nat → Photon α → HM (Block α) (Int × Nat × Photon α)}
    {tr : Int → Int → Nat → Photon α → Out (Int × Nat × Photon α)}
    (H : ∀ q r t ix T, Sim ne t (trM q r (some t) ix T) (tr q r ix T) (·.2.2) T) (P : Photon α) (w : Wall α) (ws : List α) (c : Int)
    (hw : ws.length = ne) (hco : P.coef = true) {h : Heap (Block α)} {b : Ph} {xs : Bool → List (Nat × Nat)} (wf : h.WF) (am : Ample h)
    (o : Own h.mem ne p true b xs (fun _ => 0) P) {a : Nat} (ha : h.mem a = some (.doubles ws)) (hn : a ∉ foot p b xs) :
    Agree ne p true h (foot p b xs ++ [a]) ((reflectLeakM D trM (some p) (some a) P w ws c).run h) (reflectLeak D tr P w ws c) (·.2) := by
  have hch : P.chans.length = ne := o.nch rfl
  -- one leak is recorded and `w_leak` is released
  have one : ∀ s (l : Leak α), l.weight = ws →
      ∃ h' b' xs', (HM.ofCM (addLeak s (some p) l ne (some a)) >>= fun ok => HM.ofCM (free (some a)) >>= fun _ =>
        Pure.pure (if ok then (c, addTo s P [l]) else (-1, P))).run h = .ok ((c, addTo s P [l]), h') ∧
        Own h'.mem ne p true b' xs' (fun _ => 0) (addTo s P [l]) ∧ Frame (foot p b xs ++ [a]) (foot p b' xs') h h' := by
    intro s l hl
    obtain ⟨h1, b1, xs1, r1, -, o1, f1⟩ := addLeak_run wf am o s l (by rw [hl]; exact hw) (by rw [hl]; exact ha)
    obtain ⟨k1, n1⟩ := f1.other wf ha hn
    obtain ⟨h2, r2, f2⟩ := free_run f1.wf k1
    refine ⟨h2, b1, xs1, ?_, o1.frame f1.wf f2 (fun x hx => by simp; rintro rfl; exact n1 hx), ?_⟩
    · rw [HM.bind_ofCM r1, HM.bind_ofCM r2]; rfl
    · exact (f1.add [a]).trans wf (f2.ext (R := foot p b1 xs1) (by simp [or_comm]) (by simp))
  have plain : ∃ h' b' xs', (HM.ofCM (free (some a)) >>= fun _ => Pure.pure (c, P)).run h = .ok ((c, P), h') ∧
        Own h'.mem ne p true b' xs' (fun _ => 0) P ∧ Frame (foot p b xs ++ [a]) (foot p b' xs') h h' := by
    obtain ⟨h2, r2, f2⟩ := free_run wf ha
    exact ⟨h2, b, xs, by rw [HM.bind_ofCM r2]; rfl, o.frame wf f2 (fun x hx => by simp; rintro rfl; exact hn hx),
      f2.ext (R := foot p b xs) (by simp [or_comm]) (by simp)⟩
  unfold reflectLeakM reflectLeak
  simp only [hch]
  by_cases h3 : wallCode D w.code (along P.exitC P.exitD w.d) = 3
  · rw [if_pos h3, if_pos h3]
    exact one true ⟨_, P.exitD, P.exitE, P.i_refl, ws⟩ rfl
  · rw [if_neg h3, if_neg h3]
    by_cases h2 : wallCode D w.code (along P.exitC P.exitD w.d) = 2
    · rw [if_pos h2, if_pos h2]
      exact one false ⟨_, P.exitD, P.exitE, P.i_refl, ws⟩ rfl
    · rw [if_neg h2, if_neg h2]
      by_cases h1 : wallCode D w.code (along P.exitC P.exitD w.d) = 1 ∧ ((along P.exitC P.exitD w.d).z <. D.prof.z D.prof.nmax) = true
      · rw [if_pos h1, if_pos h1]
        cases hnew : photonNew (along P.exitC P.exitD w.d) P.exitD P.exitE with
        | none => rfl
        | some T0 =>
          simp only
          have hT0 : T0.ext = [] ∧ T0.int = [] := by
            unfold photonNew at hnew
            split at hnew
            · cases hnew
            · split at hnew
              · cases hnew
              · injection hnew with hnew; subst hnew; exact ⟨rfl, rfl⟩
          obtain ⟨z1, z2, z3, z4, z5⟩ := zip_maps P.chans ws (by rw [hw, hch])
          set T := tempPhoton P T0 w.d ws with hT
          obtain ⟨h1, t, bt, cx, cy, r1, ot, mx, my, nxy, nx, ny, f1⟩ := tempNew_run wf am (ne := ne) (T := T) hT0.1 hT0.2 (by rw [← hch]; exact z1) hco
            (D.prof.nmax + 1)
          have e1 : T.chans.map (·.w) = ws := z2
          have e2 : T.chans.map (·.e) = P.chans.map (·.e) := z3
          have e3 : T.chans.map (·.amu) = P.chans.map (·.amu) := z4
          have e4 : T.chans.map (·.scatf) = P.chans.map (·.scatf) := z5
          rw [e1, e2, e3, e4] at r1
          rw [HM.bind_ofCM r1]
          simp only
          have new : ∀ x ∈ foot t bt (fun _ => []) ++ [cx, cy], h.next ≤ x := fun x hx => by
            rcases f1.fresh x hx with hy | hy
            · cases hy
            · exact hy
          have o1 := o.frame wf f1 (fun x _ => by simp)
          have a1 := (f1.other wf ha (by simp)).1
          have al := live_lt wf ha
          have S := traceLoop_sim (H w.q w.r t) (D.prof.nmax - segIdFrom D.prof.z 0 T.exitC.z (D.prof.nmax + 1) + 1) 0
            (segIdFrom D.prof.z 0 T.exitC.z (D.prof.nmax + 1)) T h1 bt _ f1.wf (am.frame f1) ot
          cases hv : traceLoop (tr w.q w.r) (D.prof.nmax - segIdFrom D.prof.z 0 T.exitC.z (D.prof.nmax + 1) + 1) 0
            (segIdFrom D.prof.z 0 T.exitC.z (D.prof.nmax + 1)) T with
          | ub => rw [hv] at S; exact HM.run_bind_ub S
          | fuel => rw [hv] at S; exact HM.run_bind_fuel S
          | ok x =>
            rw [hv] at S
            obtain ⟨h2, b2, xs2, r2, ot2, f2⟩ := S
            rw [HM.run_bind_ok r2, Out.bind_ok]
            have dp : ∀ x ∈ foot p b xs, x ∉ foot t bt (fun _ => []) := fun x hx hm => by
              have := new x (by simp [hm]); have := o.lt wf hx; omega
            have o2 := o1.frame f1.wf f2 dp
            have da : a ∉ foot t bt (fun _ => []) := fun hm => by have := new a (by simp [hm]); omega
            obtain ⟨a2, na2⟩ := f2.other f1.wf a1 da
            obtain ⟨x2, nx2⟩ := f2.other f1.wf mx nx
            obtain ⟨y2, ny2⟩ := f2.other f1.wf my ny
            have nxp : cx ∉ foot p b xs := fun hm => by have := new cx (by simp); have := o.lt wf hm; omega
            have nyp : cy ∉ foot p b xs := fun hm => by have := new cy (by simp); have := o.lt wf hm; omega
            have nxa : cx ≠ a := by have := new cx (by simp); omega
            have nya : cy ≠ a := by have := new cy (by simp); omega
            have dp2 : ∀ x ∈ foot p b xs, x ∉ foot t b2 xs2 := fun x hx => by
              obtain ⟨bl, hbl⟩ := Option.ne_none_iff_exists'.mp (o1.live hx)
              exact (f2.other f1.wf hbl (dp x hx)).2
            have F02 : Frame (foot p b xs ++ [a]) (foot p b xs ++ [a] ++ (foot t b2 xs2 ++ [cx, cy])) h h2 :=
              (f1.ext (C := foot p b xs ++ [a]) (C' := foot p b xs ++ [a] ++ (foot t bt (fun _ => []) ++ [cx, cy])) (R := foot p b xs ++ [a])
                (by simp) (by simp [or_comm, or_assoc, or_left_comm])).trans wf
              (f2.ext (R := foot p b xs ++ [a] ++ [cx, cy]) (by simp [or_comm, or_assoc, or_left_comm]) (by simp [or_comm, or_assoc, or_left_comm]))
            by_cases hx : x.1 = -1 ∨ x.1 = -3
            · rw [if_pos hx, if_pos hx]
              obtain ⟨h3, r3, f3⟩ := tempFree_run f2.wf ot2 x2 y2 nxy nx2 ny2
              obtain ⟨a3, -⟩ := f3.other f2.wf a2 (by simp [na2, nxa.symm, nya.symm])
              obtain ⟨h4, r4, f4⟩ := free_run f3.wf a3
              have o3 := o2.frame f2.wf f3 (fun x hx hm => by
                rcases List.mem_append.mp hm with hm | hm
                · exact dp2 x hx hm
                · simp at hm; rcases hm with rfl | rfl
                  · exact nxp hx
                  · exact nyp hx)
              refine ⟨h4, b, xs, ?_, o3.frame f3.wf f4 (fun x hx => by simp; rintro rfl; exact hn hx), ?_⟩
              · rw [HM.bind_ofCM r3, HM.bind_ofCM r4]; rfl
              · exact (F02.trans wf (f3.ext (C' := foot p b xs ++ [a]) (R := foot p b xs ++ [a]) (by simp [or_comm, or_assoc, or_left_comm]) (by simp))).trans wf
                  (f4.ext (R := foot p b xs) (by simp [or_comm]) (by simp))
            · rw [if_neg hx, if_neg hx]
              have dpt : ∀ x ∈ foot t b2 xs2, x ∉ foot p b xs := fun x hx hm => dp2 x hm hx
              obtain ⟨h3, b3, xs3, r3, o3, f3⟩ := append_run f2.wf (am.frame F02) o2 ot2 dpt true
              have ot3 := ot2.frame f2.wf f3 dpt
              have dpt3 : ∀ x ∈ foot t b2 xs2, x ∉ foot p b3 xs3 := fun x hx => by
                obtain ⟨bl, hbl⟩ := Option.ne_none_iff_exists'.mp (ot2.live hx)
                exact (f3.other f2.wf hbl (dpt x hx)).2
              obtain ⟨h4, b4, xs4, r4, o4, f4⟩ := append_run f3.wf ((am.frame F02).frame f3) o3 ot3 dpt3 false
              have ot4 := ot3.frame f3.wf f4 dpt3
              have dpt4 : ∀ x ∈ foot t b2 xs2, x ∉ foot p b4 xs4 := fun x hx => by
                obtain ⟨bl, hbl⟩ := Option.ne_none_iff_exists'.mp (ot3.live hx)
                exact (f4.other f3.wf hbl (dpt3 x hx)).2
              obtain ⟨h5, b5, xs5, r5, o5, f5⟩ := recordTemp_run f4.wf (((am.frame F02).frame f3).frame f4) D o4 ot4 x.1
              have ot5 := ot4.frame f4.wf f5 dpt4
              have dpt5 : ∀ x ∈ foot t b2 xs2, x ∉ foot p b5 xs5 := fun x hx => by
                obtain ⟨bl, hbl⟩ := Option.ne_none_iff_exists'.mp (ot4.live hx)
                exact (f5.other f4.wf hbl (dpt4 x hx)).2
              have F25 := (f3.trans f2.wf f4).trans f2.wf f5
              obtain ⟨a5, na5⟩ := F25.other f2.wf a2 hn
              obtain ⟨x5, nx5⟩ := F25.other f2.wf x2 nxp
              obtain ⟨y5, ny5⟩ := F25.other f2.wf y2 nyp
              obtain ⟨h6, r6, f6⟩ := tempFree_run f5.wf ot5 x5 y5 nxy nx2 ny2
              obtain ⟨a6, -⟩ := f6.other f5.wf a5 (by simp [na2, nxa.symm, nya.symm])
              obtain ⟨h7, r7, f7⟩ := free_run f6.wf a6
              have o6 := o5.frame f5.wf f6 (fun x hx hm => by
                rcases List.mem_append.mp hm with hm | hm
                · exact dpt5 x hm hx
                · simp at hm; rcases hm with rfl | rfl
                  · exact nx5 hx
                  · exact ny5 hx)
              refine ⟨h7, b5, xs5, ?_, o6.frame f6.wf f7 (fun x hx => by simp; rintro rfl; exact na5 hx), ?_⟩
              · rw [HM.bind_ofCM r3]
                simp only [if_true]
                rw [HM.bind_ofCM r4]
                simp only [if_true]
                have r5' : (recordTempM D (some p) (some t) { P with ext := P.ext ++ x.2.2.ext, int := P.int ++ x.2.2.int } x.2.2 x.1).run h4 =
                  some (true, h5) := r5
                rw [HM.bind_ofCM r5', HM.bind_ofCM r6, HM.bind_ofCM r7]
                rfl
              · refine (F02.trans wf (F25.ext (C' := foot p b5 xs5 ++ [a] ++ (foot t b2 xs2 ++ [cx, cy])) (R := [a] ++ (foot t b2 xs2 ++ [cx, cy]))
                  (by simp) (by simp))).trans wf ?_
                exact (f6.ext (C' := foot p b5 xs5 ++ [a]) (R := foot p b5 xs5 ++ [a]) (by simp [or_comm, or_assoc, or_left_comm]) (by simp)).trans f5.wf
                  (f7.ext (R := foot p b5 xs5) (by simp [or_comm]) (by simp))
      · rw [if_neg h1, if_neg h1]
        exact plain

theorem chans_maps (D : Descr α) (norm dir : V3 α) (alfa : α) (leak : Bool) (d : α) : ∀ (cs : List (Chan α)) (E ev : V3 α),
    (reflEnergies D norm dir alfa leak d cs E ev).chans.map (·.e) = cs.map (·.e) ∧
    (reflEnergies D norm dir alfa leak d cs E ev).chans.map (·.amu) = cs.map (·.amu) ∧
    (reflEnergies D norm dir alfa leak d cs E ev).chans.map (·.scatf) = cs.map (·.scatf) := by
  intro cs
  induction cs with
  | nil => intro E ev; simp [reflEnergies]
  | cons c cs ih =>
    intro E ev
    rw [reflEnergies]
    simp only
    split
    · exact ⟨rfl, rfl, rfl⟩
    · obtain ⟨h1, h2, h3⟩ := ih (reflPolar c.e D.density c.scatf c.amu norm dir E ev).2.2 (reflPolar c.e D.density c.scatf c.amu norm dir E ev).2.1
      simp [h1, h2, h3]

omit [CNum α] in
theorem loadArr_run {h : Heap (Block α)} {q : Nat} {ys : List α} (hq : h.mem q = some (.doubles ys)) {n : Nat} (hn : ys.length = n) :
    (loadArr (some q) n).run h = some (ys, h) := by
  subst hn
  simp [loadArr, run_bind, run_load, hq]

omit [CNum α] in
/-- the energy loop reads the four arrays; without coefficients that is undefined -/
theorem readWork_run {h : Heap (Block α)} {ne p : Nat} {b : Ph} {xs : Bool → List (Nat × Nat)} {r : Bool → Nat} {P : Photon α} (h0 : 0 < ne)
    (o : Own h.mem ne p true b xs r P) :
    (P.coef = true → (readWork b ne).run h = some ((), h)) ∧ (P.coef = false → (readWork b ne).run h = none) := by
  obtain ⟨a1, e1, m1⟩ := o.en
  obtain ⟨a2, e2, m2⟩ := o.w
  have hn := o.nch rfl
  constructor
  · intro hc
    have o3 := o.amu
    have o4 := o.sc
    rw [hc] at o3 o4
    obtain ⟨a3, e3, m3⟩ := o3
    obtain ⟨a4, e4, m4⟩ := o4
    rw [readWork, if_neg (by omega), e1, e2, e3, e4, run_bind_some (loadArr_run m1 (by simpa using hn)), run_bind_some (loadArr_run m2 (by simpa using hn)),
      run_bind_some (loadArr_run m3 (by simpa using hn)), run_bind_some (loadArr_run m4 (by simpa using hn))]
    rfl
  · intro hc
    have o3 := o.amu
    rw [hc] at o3
    have e3 : b.amu = none := o3
    rw [readWork, if_neg (by omega), e1, e2, e3, run_bind_some (loadArr_run m1 (by simpa using hn)), run_bind_some (loadArr_run m2 (by simpa using hn))]
    rfl

theorem reflectRest_sim {ne p : Nat} (h0 : 0 < ne) (D : Descr α) (leak : Bool)
    {trM : Int → Int → Ptr → Nat → Photon α → HM (Block α) (Int × Nat × Photon α)}
    {tr : Int → Int → Nat → Photon α → Out (Int × Nat × Photon α)}
    (H : ∀ q r t ix T, Sim ne t (trM q r (some t) ix T) (tr q r ix T) (·.2.2) T) (norm : V3 α) (alfa : α) (P : Photon α) (w : Wall α)
    {h : Heap (Block α)} {b : Ph} {xs : Bool → List (Nat × Nat)} (wf : h.WF) (am : Ample h)
    (o : Own h.mem ne p true b xs (fun _ => 0) P) {a : Nat} (ha : h.mem a = some (.raw ne)) (hn : a ∉ foot p b xs) :
    Agree ne p true h (foot p b xs ++ [a]) ((reflectRestM D leak trM norm alfa (some p) (some a) P w).run h) (reflectRest D leak tr norm alfa P w) (·.2) := by
  have hch : P.chans.length = ne := o.nch rfl
  -- `w_leak` is released at the end
  have fin : ∀ {h1 : Heap (Block α)} {P1 : Photon α} {b1 : Ph} {xs1 : Bool → List (Nat × Nat)} (c : Int) {bl : Block α},
      Own h1.mem ne p true b1 xs1 (fun _ => 0) P1 → Frame (foot p b xs ++ [a]) (foot p b1 xs1 ++ [a]) h h1 → h1.mem a = some bl → a ∉ foot p b1 xs1 →
      Agree ne p true h (foot p b xs ++ [a]) ((HM.ofCM (free (some a)) >>= fun _ => Pure.pure (c, P1)).run h1) (.ok (c, P1)) (·.2) := by
    intro h1 P1 b1 xs1 c bl o1 f1 m1 n1
    obtain ⟨h2, r2, f2⟩ := free_run f1.wf m1
    exact ⟨h2, b1, xs1, by rw [HM.bind_ofCM r2]; rfl, o1.frame f1.wf f2 (fun x hx => by simp; rintro rfl; exact n1 hx),
      f1.trans wf (f2.ext (R := foot p b1 xs1) (by simp [or_comm]) (by simp))⟩
  unfold reflectRestM reflectRest
  by_cases hc : leak = true ∧ w.code ≤ 0
  · rw [if_pos hc, if_pos hc]
    exact fin (-1) o (Frame.refl _ wf) ha hn
  · rw [if_neg hc, if_neg hc, HM.bind_ofCM (getPh_run o.blk), hch]
    have hne : P.chans.isEmpty = false := by cases hl : P.chans with
      | nil => rw [hl] at hch; simp at hch; omega
      | cons => rfl
    cases hco : P.coef with
    | false =>
      simp only [hne, Bool.not_false, Bool.and_self, if_true]
      exact HM.run_bind_ub (HM.run_ofCM_ub ((readWork_run h0 o).2 hco))
    | true =>
      simp only [Bool.not_true, Bool.false_and, Bool.false_eq_true, if_false]
      rw [HM.bind_ofCM ((readWork_run h0 o).1 hco)]
      set r := reflEnergies D norm P.exitD alfa leak w.d P.chans P.exitE P.exitE with hr
      obtain ⟨s1, s2, s3⟩ := reflEnergies_shape D norm P.exitD alfa leak w.d P.chans P.exitE P.exitE
      obtain ⟨c1, c2, c3⟩ := chans_maps D norm P.exitD alfa leak w.d P.chans P.exitE P.exitE
      rw [← hr] at s1 s2 s3 c1 c2 c3
      obtain ⟨h1, r1, o1, f1⟩ := storeW_run wf (P' := { P with chans := r.chans }) o rfl rfl rfl s1 c1 c2 c3
      obtain ⟨a1, -⟩ := f1.other wf ha hn
      rw [HM.bind_ofCM r1]
      have F1 := f1.add [a]
      cases hok : r.ok with
      | false =>
        simp only [Bool.not_false, if_true]
        exact fin (-1) (o1.same (P' := { P with chans := r.chans, exitE := r.E, coef := true }) rfl rfl rfl hco.symm) F1 a1 hn
      | true =>
        simp only [Bool.not_true, Bool.false_eq_true, if_false]
        have o1' : Own h1.mem ne p true b xs (fun _ => 0) { P with chans := r.chans, exitE := r.ev, coef := true } := o1.same rfl rfl rfl hco.symm
        cases hl : leak with
        | false =>
          have : r.leakFlag = false := s3 hl
          simp only [Bool.false_eq_true, if_false]
          rw [HM.bind_ofCM (show (Pure.pure () : CM (Block α) Unit).run h1 = some ((), h1) from rfl)]
          simp only [this, Bool.false_eq_true, if_false]
          exact fin _ o1' F1 a1 hn
        | true =>
          simp only [if_true]
          have hwl : r.wl.length = ne := by rw [s2 hok, hch]
          have r2 : (storeArr (some a) r.wl).run h1 = some ((), { h1 with mem := upd h1.mem a (some (.doubles r.wl)) }) := by
            simp [storeArr, run_bind, run_load, a1, run_store, hwl]
          have f2 : Frame [a] [a] h1 { h1 with mem := upd h1.mem a (some (.doubles r.wl)) } :=
            ⟨fun _ h1 h2 => absurd h1 h2, fun x hx _ => upd_other _ _ (by simpa using hx), fun _ hx => .inl hx, le_refl _, rfl, fun x hx => by
              have := live_lt f1.wf a1
              simp only at hx ⊢
              rw [upd_other _ _ (by omega)]; exact f1.wf x hx⟩
          have o2 := o1'.frame f1.wf f2 (fun x hx => by simp; rintro rfl; exact hn hx)
          have F2 : Frame (foot p b xs ++ [a]) (foot p b xs ++ [a]) h _ := F1.trans wf (f2.ext (R := foot p b xs) (by simp [or_comm]) (by simp [or_comm]))
          rw [HM.bind_ofCM r2]
          cases hlf : r.leakFlag with
          | false =>
            simp only [Bool.false_eq_true, if_false]
            exact fin _ o2 F2 (upd_same _ _ _) hn
          | true =>
            simp only [if_true]
            exact (reflectLeak_sim D H _ w r.wl _ hwl rfl F2.wf (am.frame F2) o2 (upd_same _ _ _) hn).after wf F2

theorem reflectBody_sim {ne p : Nat} (h0 : 0 < ne) (D : Descr α) (leak : Bool) (fuel : Nat)
    {trM : Int → Int → Ptr → Nat → Photon α → HM (Block α) (Int × Nat × Photon α)}
    {tr : Int → Int → Nat → Photon α → Out (Int × Nat × Photon α)}
    (H : ∀ q r t ix T, Sim ne t (trM q r (some t) ix T) (tr q r ix T) (·.2.2) T) (norm : V3 α) (P : Photon α) :
    Sim ne p (reflectBodyM D leak fuel trM norm (some p) P) (reflectBody D leak fuel tr norm P) (·.2) P := by
  intro h b xs wf am o
  have hch : P.chans.length = ne := o.nch rfl
  unfold reflectBodyM reflectBody
  simp only [hch]
  split
  · exact ⟨h, b, xs, rfl, o.same rfl rfl rfl rfl, Frame.refl _ wf⟩
  · obtain ⟨h1, r1, m1, f1⟩ := malloc_run wf am (.raw ne)
    rw [HM.bind_ofCM r1]
    simp only [reduceCtorEq, if_false]
    cases hw : wallOf D leak fuel { P with exitD := vnorm P.exitD } with
    | ub => rfl
    | fuel => rfl
    | ok w =>
      rw [HM.bind_ofOut rfl, Out.bind_ok]
      obtain ⟨h2, r2, f2⟩ := wallTemp_run f1.wf (am.frame f1) D P.exitC (vnorm (vnorm P.exitD)) w
      rw [HM.bind_ofCM r2]
      have n1 : h.next ∉ foot p b xs := fun hm => by have := o.lt wf hm; omega
      have o1 := (o.frame wf f1 (fun x _ => by simp)).frame f1.wf f2 (fun x _ => by simp)
      have m2 := (f2.other f1.wf m1 (by simp)).1
      have o2 : Own h2.mem ne p true b xs (fun _ => 0) (renorm leak { P with exitD := vnorm P.exitD }) := by
        refine o1.same ?_ ?_ ?_ ?_ <;> (unfold renorm; split <;> rfl)
      refine (reflectRest_sim h0 D leak H (vnorm norm) _ _ w f2.wf ((am.frame f1).frame f2) o2 m2 n1).after wf ?_
      exact (f1.ext (R := foot p b xs) (C' := foot p b xs ++ [h.next]) (by simp) (by simp [or_comm])).trans wf
        (f2.ext (R := foot p b xs ++ [h.next]) (by simp) (by simp))

omit [CNum α] in
theorem Sim.congr {A : Type} {ne p : Nat} {x : HM (Block α) A} {v : Out A} {ph : A → Photon α} {P P' : Photon α} (h : Sim ne p x v ph P')
    (hx : P'.ext = P.ext) (hi : P'.int = P.int) (hc : P'.chans = P.chans) (hco : P'.coef = P.coef) : Sim ne p x v ph P :=
  fun h' b xs wf am o => h h' b xs wf am (o.same hx hi hc hco)

theorem traceHit_sim {ne t : Nat} (D : Descr α) {reflM : V3 α → Ptr → Photon α → HM (Block α) (Int × Photon α)}
    {refl : V3 α → Photon α → Out (Int × Photon α)} (H : ∀ n P, Sim ne t (reflM n (some t) P) (refl n P) (·.2) P) (P : Photon α) (i : Nat) (v n : V3 α)
    (ca : α) : Sim ne t (traceHitM D reflM (some t) P i v n ca) (traceHit D refl P i v n ca) (·.2.2) P := by
  unfold traceHitM traceHit
  simp only
  split
  · exact Sim.ret _ _ fun _ _ _ o => o.same rfl rfl rfl rfl
  · split
    · intro h b xs _ _ _; rfl
    · split
      · exact Sim.ret _ _ fun _ _ _ o => o.same rfl rfl rfl rfl
      · split
        · exact Sim.ret _ _ fun _ _ _ o => o.same rfl rfl rfl rfl
        · intro h b xs wf am o
          have o' : Own h.mem ne t true b xs (fun _ => 0) { P with d_travel := P.d_travel +. dist3 v P.exitC, exitC := v } := o.same rfl rfl rfl rfl
          have g := H n _ h b xs wf am o'
          cases hv : refl n { P with d_travel := P.d_travel +. dist3 v P.exitC, exitC := v } with
          | ub => rw [hv] at g; exact HM.run_bind_ub g
          | fuel => rw [hv] at g; exact HM.run_bind_fuel g
          | ok x =>
            rw [hv] at g
            obtain ⟨h1, b1, xs1, r1, o1, f1⟩ := g
            refine ⟨h1, b1, xs1, by rw [HM.run_bind_ok r1]; rfl, ?_, f1⟩
            unfold afterReflect
            split
            · exact o1.same rfl rfl rfl rfl
            · split
              · exact o1
              · exact o1

theorem capilTrace_sim {ne t : Nat} (D : Descr α) {reflM : V3 α → Ptr → Photon α → HM (Block α) (Int × Photon α)}
    {refl : V3 α → Photon α → Out (Int × Photon α)} (H : ∀ n P, Sim ne t (reflM n (some t) P) (refl n P) (·.2) P) (capx capy : Nat → α) (ix : Nat)
    (P : Photon α) : Sim ne t (capilTraceM D reflM capx capy (some t) ix P) (capilTrace D refl capx capy ix P) (·.2.2) P := by
  unfold capilTraceM capilTrace
  simp only
  cases traceSearch D capx capy { P with exitD := vnorm P.exitD, startD := vnorm P.startD } (D.prof.nmax - ix) ix P.exitC ⟨lit 0, lit 0, lit 0⟩ with
  | ret code => exact Sim.ret _ _ fun _ _ _ o => o.same rfl rfl rfl rfl
  | miss => exact Sim.ret _ _ fun _ _ _ o => o.same rfl rfl rfl rfl
  | hit i v n ca => exact (traceHit_sim D H _ _ _ _ _).congr rfl rfl rfl rfl

theorem reflect_sim {ne : Nat} (h0 : 0 < ne) (D : Descr α) (leak : Bool) (fuel : Nat) : ∀ (k p : Nat) (n : V3 α) (P : Photon α),
    Sim ne p (reflectM D leak fuel k n (some p) P) (reflect D leak fuel k n P) (·.2) P := by
  intro k
  induction k with
  | zero => intro p n P h b xs _ _ _; rfl
  | succ k ih =>
    intro p n P
    exact reflectBody_sim h0 D leak fuel (fun q r t ix T => capilTrace_sim D (fun n P => ih t n P) _ _ ix T) n P

theorem trace_sim {ne : Nat} (h0 : 0 < ne) (D : Descr α) (leak : Bool) (fuel k p : Nat) (capx capy : Nat → α) (ix : Nat) (P : Photon α) :
    Sim ne p (traceM D leak fuel k capx capy (some p) ix P) (trace D leak fuel k capx capy ix P) (·.2.2) P :=
  capilTrace_sim D (fun n P => reflect_sim h0 D leak fuel k p n P) capx capy ix P

end LMem
end Polycap
