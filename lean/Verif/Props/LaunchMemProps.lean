import Verif.Props.LaunchMemSim

/-!
# C81: memory of `polycap_photon_launch`
-/
namespace Polycap.LMem
open CNum CM Mem Memo

variable {α : Type}

/-! ## Specification -/

/-- what the caller's weights array holds -/
def WBlk (ne : Nat) : WOut α → Block α
  | .filled ws => .doubles ws
  | _ => .raw ne

/-- the structs of these leaks -/
def structs (xs : Bool → List (Nat × Nat)) : List Nat := (xs true).map (·.1) ++ (xs false).map (·.1)

/-! ## Leaving -/

/-- the axis arrays and the caller's weights array, none of them among the blocks `A` -/
structure Axes (h : Heap (Block α)) (A : List Nat) (cx cy wt ne nax : Nat) : Prop where
  x : h.mem cx = some (.raw nax)
  y : h.mem cy = some (.raw nax)
  w : h.mem wt = some (.raw ne)
  nx : cx ∉ A
  ny : cy ∉ A
  nw : wt ∉ A
  xy : cx ≠ cy
  wx : wt ≠ cx
  wy : wt ≠ cy

theorem Axes.frame {h h' : Heap (Block α)} {A A' : List Nat} {cx cy wt ne nax : Nat} (g : Axes h A cx cy wt ne nax) (wf : h.WF) (f : Frame A A' h h') :
    Axes h' A' cx cy wt ne nax :=
  ⟨(f.other wf g.x g.nx).1, (f.other wf g.y g.ny).1, (f.other wf g.w g.nw).1, (f.other wf g.x g.nx).2, (f.other wf g.y g.ny).2, (f.other wf g.w g.nw).2,
    g.xy, g.wx, g.wy⟩

/-- the launch on the heap agrees with the launch on values -/
def AgreeL (ne p wt : Nat) (h : Heap (Block α)) (F : List Nat) (run : Out ((Int × Photon α) × Heap (Block α))) (v : Out (Int × WOut α × Photon α)) :
    Prop :=
  match v with
  | .ok a => ∃ h' b' xs', run = .ok ((a.1, a.2.2), h') ∧ Own h'.mem ne p false b' xs' (fun _ => 0) a.2.2 ∧ h'.mem wt = some (WBlk ne a.2.1) ∧
      wt ∉ foot p b' xs' ∧ Frame F (foot p b' xs' ++ [wt]) h h'
  | .ub => run = .ub
  | .fuel => run = .fuel

theorem AgreeL.after {ne p wt : Nat} {h h1 : Heap (Block α)} {F F1 : List Nat} {run : Out ((Int × Photon α) × Heap (Block α))}
    {v : Out (Int × WOut α × Photon α)} (g : AgreeL ne p wt h1 F1 run v) (wf : h.WF) (f : Frame F F1 h h1) : AgreeL ne p wt h F run v := by
  cases v with
  | ok a => obtain ⟨h', b', xs', r, o, w, n, f'⟩ := g; exact ⟨h', b', xs', r, o, w, n, f.trans wf f'⟩
  | ub => exact g
  | fuel => exact g

theorem leave_run {h : Heap (Block α)} (wf : h.WF) {ne p : Nat} {b : Ph} {xs : Bool → List (Nat × Nat)} {P : Photon α}
    (o : Own h.mem ne p true b xs (fun _ => 0) P) {cx cy : Nat} {bx by' : Block α} (hx : h.mem cx = some bx) (hy : h.mem cy = some by')
    (hxy : cx ≠ cy) (nx : cx ∉ foot p b xs) (ny : cy ∉ foot p b xs) :
    ∃ h', (leave (some p) (some cx) (some cy)).run h = some ((), h') ∧ Own h'.mem ne p false b.bare xs (fun _ => 0) (finish P) ∧
      Frame (foot p b xs ++ [cx, cy]) (foot p b.bare xs) h h' := by
  obtain ⟨h1, r1, f1⟩ := free_run wf hx
  have o1 := o.frame wf f1 (fun a ha => by simp; rintro rfl; exact nx ha)
  obtain ⟨h2, r2, f2⟩ := free_run f1.wf (f1.other wf hy (by simp; exact hxy.symm)).1
  have o2 := o1.frame f1.wf f2 (fun a ha => by simp; rintro rfl; exact ny ha)
  obtain ⟨h3, r3, o3, f3⟩ := freeWork_run f2.wf o2
  refine ⟨h3, ?_, o3, ?_⟩
  · simp only [leave]
    rw [run_bind_some r1, run_bind_some r2]; exact r3
  · exact ((f1.ext (C := foot p b xs ++ [cx, cy]) (C' := foot p b xs ++ [cy]) (R := foot p b xs ++ [cy]) (by simp [or_comm, or_assoc]) (by simp)).trans wf
      (f2.ext (C' := foot p b xs) (R := foot p b xs) (by simp [or_comm]) (by simp))).trans wf f3

/-- everything is released and the call returns `c` -/
theorem leave_agree {h h1 : Heap (Block α)} {F : List Nat} {ne p cx cy wt nax : Nat} {b1 : Ph} {xs1 : Bool → List (Nat × Nat)} {P1 P2 : Photon α}
    (wf : h.WF) (wf1 : h1.WF) (o : Own h1.mem ne p true b1 xs1 (fun _ => 0) P1) (g : Axes h1 (foot p b1 xs1) cx cy wt ne nax)
    (f : Frame F (foot p b1 xs1 ++ [cx, cy, wt]) h h1) (c : Int) (hx : P2.ext = P1.ext) (hi : P2.int = P1.int) (hc : P2.chans = [])
    (hco : P2.coef = false) :
    AgreeL ne p wt h F ((HM.ofCM (leave (some p) (some cx) (some cy)) >>= fun _ => Pure.pure (c, P2)).run h1) (.ok (c, .uninit, P2)) := by
  obtain ⟨h2, r2, o2, f2⟩ := leave_run wf1 o g.x g.y g.xy g.nx g.ny
  obtain ⟨w2, n2⟩ := f2.other wf1 g.w (by simp [g.nw, g.wx, g.wy])
  refine ⟨h2, b1.bare, xs1, by rw [HM.bind_ofCM r2]; rfl, o2.same hx hi hc hco, w2, n2, ?_⟩
  exact f.trans wf (f2.ext (R := [wt]) (by simp [or_assoc]) (by simp))

variable [CNum α]

omit [CNum α] in
theorem readAtt_run {h : Heap (Block α)} {ne p : Nat} {b : Ph} {xs : Bool → List (Nat × Nat)} {r : Bool → Nat} {P : Photon α} (h0 : 0 < ne)
    (o : Own h.mem ne p true b xs r P) :
    (P.coef = true → (readAtt b ne).run h = some ((), h)) ∧ (P.coef = false → (readAtt b ne).run h = none) := by
  obtain ⟨a2, e2, m2⟩ := o.w
  have hn := o.nch rfl
  constructor
  · intro hc
    have o3 := o.amu
    rw [hc] at o3
    obtain ⟨a3, e3, m3⟩ := o3
    rw [readAtt, if_neg (by omega), e2, e3, run_bind_some (loadArr_run m2 (by simpa using hn)), run_bind_some (loadArr_run m3 (by simpa using hn))]
    rfl
  · intro hc
    have o3 := o.amu
    rw [hc] at o3
    have e3 : b.amu = none := o3
    rw [readAtt, if_neg (by omega), e2, e3, run_bind_some (loadArr_run m2 (by simpa using hn))]
    rfl

theorem att_maps (d : α) (cs : List (Chan α)) : (cs.map (attenuate d)).map (·.e) = cs.map (·.e) ∧ (cs.map (attenuate d)).map (·.amu) = cs.map (·.amu) ∧
    (cs.map (attenuate d)).map (·.scatf) = cs.map (·.scatf) := by
  simp [attenuate, Function.comp_def]

theorem recordLaunch_run {h : Heap (Block α)} (wf : h.WF) (am : Ample h) (D : Descr α) {ne p : Nat} {b : Ph} {xs : Bool → List (Nat × Nat)}
    {P : Photon α} (o : Own h.mem ne p true b xs (fun _ => 0) P) (c : Int) :
    ∃ h' b' xs', (recordLaunchM D (some p) P c).run h = some (true, h') ∧
      Own h'.mem ne p true b' xs' (fun _ => 0) (recordLaunch D P c) ∧ Frame (foot p b xs) (foot p b' xs') h h' := by
  unfold recordLaunchM recordLaunch
  by_cases hc : c = 1 ∨ c = -2
  · rw [if_pos hc, if_pos hc]
    simp only
    rw [run_bind_some (getPh_run o.blk)]
    obtain ⟨a, ha, hm⟩ := o.w
    have hl : ((P.chans.map (·.w)) : List α).length = ne := by rw [List.length_map]; exact o.nch rfl
    have hn : P.chans.length = ne := o.nch rfl
    rw [hn, ha]
    have o' : Own h.mem ne p true b xs (fun _ => 0) { P with exitC := toExit D.prof P.exitC P.exitD } := o.same rfl rfl rfl rfl
    generalize withinPcBoundary (D.prof.ext D.prof.nmax) (toExit D.prof P.exitC P.exitD).x (toExit D.prof P.exitC P.exitD).y = bd
    by_cases h0 : bd = 0
    · rw [if_pos h0, if_pos h0]
      obtain ⟨h', b', xs', r, -, o', f⟩ := addLeak_run wf am o' true ⟨toExit D.prof P.exitC P.exitD, P.exitD, P.exitE, P.i_refl, P.chans.map (·.w)⟩ hl hm
      exact ⟨h', b', xs', r, o', f⟩
    · rw [if_neg h0, if_neg h0]
      by_cases h1 : bd = 1
      · rw [if_pos h1, if_pos h1]
        obtain ⟨h', b', xs', r, -, o', f⟩ := addLeak_run wf am o' false ⟨toExit D.prof P.exitC P.exitD, P.exitD, P.exitE, P.i_refl, P.chans.map (·.w)⟩ hl hm
        exact ⟨h', b', xs', r, o', f⟩
      · rw [if_neg h1, if_neg h1]
        exact ⟨h, b, xs, rfl, o', Frame.refl _ wf⟩
  · rw [if_neg hc, if_neg hc]
    exact ⟨h, b, xs, rfl, o, Frame.refl _ wf⟩

theorem launchWall_sim {ne p : Nat} (h0 : 0 < ne) (D : Descr α) (leak : Bool) (fuel k : Nat) (P : Photon α) (w : Wall α)
    {h : Heap (Block α)} {b : Ph} {xs : Bool → List (Nat × Nat)} (wf : h.WF) (am : Ample h) (o : Own h.mem ne p true b xs (fun _ => 0) P)
    {cx cy wt nax : Nat} (g : Axes h (foot p b xs) cx cy wt ne nax) :
    AgreeL ne p wt h (foot p b xs ++ [cx, cy, wt]) ((launchWallM D leak fuel k (some p) (some cx) (some cy) P w).run h) (launchWall D leak fuel k P w) := by
  have hch : P.chans.length = ne := o.nch rfl
  unfold launchWallM launchWall
  by_cases hc : w.code ≤ 0
  · rw [if_pos hc, if_pos hc]
    exact leave_agree wf wf o g (Frame.refl _ wf) (-1) rfl rfl rfl rfl
  · rw [if_neg hc, if_neg hc, HM.bind_ofCM (getPh_run o.blk)]
    simp only
    rw [hch]
    have hne : P.chans.isEmpty = false := by cases hl : P.chans with
      | nil => rw [hl] at hch; simp at hch; omega
      | cons => rfl
    cases hco : P.coef with
    | false =>
      simp only [hne, Bool.not_false, Bool.and_self, if_true]
      exact HM.run_bind_ub (HM.run_ofCM_ub ((readAtt_run h0 o).2 hco))
    | true =>
      simp only [Bool.not_true, Bool.false_and, Bool.false_eq_true, if_false]
      rw [HM.bind_ofCM ((readAtt_run h0 o).1 hco)]
      obtain ⟨c1, c2, c3⟩ := att_maps w.d P.chans
      obtain ⟨h1, r1, o1, f1⟩ := storeW_run wf (P' := { P with chans := P.chans.map (attenuate w.d) }) o rfl rfl rfl (by simp) c1 c2 c3
      rw [HM.bind_ofCM r1]
      have g1 := g.frame wf f1
      have am1 := am.frame f1
      obtain ⟨a, ha, hm⟩ := o1.w
      have o1' : Own h1.mem ne p true b xs (fun _ => 0) { P with chans := P.chans.map (attenuate w.d), exitC := along P.exitC P.exitD w.d, coef := true } :=
        o1.same rfl rfl rfl hco.symm
      have hl : ((P.chans.map (attenuate w.d)).map (·.w)).length = ne := by simpa using hch
      by_cases h3 : w.code = 3
      · rw [if_pos h3, if_pos h3, ha]
        obtain ⟨h2, b2, xs2, r2, -, o2, f2⟩ := addLeak_run f1.wf am1 o1' true
          ⟨along P.exitC P.exitD w.d, P.exitD, P.exitE, P.i_refl, (P.chans.map (attenuate w.d)).map (·.w)⟩ hl hm
        rw [HM.bind_ofCM r2]
        exact leave_agree wf f2.wf o2 (g1.frame f1.wf f2) ((f1.trans wf f2).add [cx, cy, wt]) 1 rfl rfl rfl rfl
      · rw [if_neg h3, if_neg h3]
        by_cases h2 : w.code = 2
        · rw [if_pos h2, if_pos h2, ha]
          obtain ⟨h2, b2, xs2, r2, -, o2, f2⟩ := addLeak_run f1.wf am1 o1' false
            ⟨along P.exitC P.exitD w.d, P.exitD, P.exitE, P.i_refl, (P.chans.map (attenuate w.d)).map (·.w)⟩ hl hm
          rw [HM.bind_ofCM r2]
          exact leave_agree wf f2.wf o2 (g1.frame f1.wf f2) ((f1.trans wf f2).add [cx, cy, wt]) 1 rfl rfl rfl rfl
        · rw [if_neg h2, if_neg h2]
          have o1'' : Own h1.mem ne p true b xs (fun _ => 0) { P with chans := P.chans.map (attenuate w.d), exitC := along P.exitC P.exitD w.d,
                                                                      coef := true, d_travel := P.d_travel +. w.d } := o1'.same rfl rfl rfl rfl
          have S := traceLoop_sim (trace_sim h0 D leak fuel k p (axX D (w.q, w.r)) (axY D (w.q, w.r))) (D.prof.nmax + 1) 0
            (segIdFrom D.prof.z (segIdFrom D.prof.z 0 P.startC.z (D.prof.nmax + 1)) (along P.exitC P.exitD w.d).z (D.prof.nmax + 1)) _ h1 b xs f1.wf am1 o1''
          generalize traceLoop (trace D leak fuel k (axX D (w.q, w.r)) (axY D (w.q, w.r))) (D.prof.nmax + 1) 0
            (segIdFrom D.prof.z (segIdFrom D.prof.z 0 P.startC.z (D.prof.nmax + 1)) (along P.exitC P.exitD w.d).z (D.prof.nmax + 1))
            { P with chans := P.chans.map (attenuate w.d), exitC := along P.exitC P.exitD w.d, coef := true, d_travel := P.d_travel +. w.d } = v at S ⊢
          cases v with
          | ub => exact HM.run_bind_ub S
          | fuel => exact HM.run_bind_fuel S
          | ok x =>
            obtain ⟨h2, b2, xs2, r2, o2, f2⟩ := S
            rw [HM.run_bind_ok r2, Out.bind_ok]
            have g2 := g1.frame f1.wf f2
            by_cases hx : x.1 = -1 ∨ x.1 = -3
            · rw [if_pos hx, if_pos hx]
              exact leave_agree wf f2.wf o2 g2 ((f1.trans wf f2).add [cx, cy, wt]) (-1) rfl rfl rfl rfl
            · rw [if_neg hx, if_neg hx]
              obtain ⟨h3, b3, xs3, r3, o3, f3⟩ := recordLaunch_run f2.wf (am1.frame f2) D o2 x.1
              rw [HM.bind_ofCM r3]
              exact leave_agree wf f3.wf o3 (g2.frame f2.wf f3) (((f1.trans wf f2).trans wf f3).add [cx, cy, wt]) 1 rfl rfl rfl rfl

theorem launchInside_sim {ne p : Nat} (h0 : 0 < ne) (D : Descr α) (leak : Bool) (fuel k : Nat) (qr : Int × Int) (P : Photon α)
    {h : Heap (Block α)} {b : Ph} {xs : Bool → List (Nat × Nat)} (wf : h.WF) (am : Ample h) (o : Own h.mem ne p true b xs (fun _ => 0) P)
    {cx cy wt nax : Nat} (g : Axes h (foot p b xs) cx cy wt ne nax) :
    AgreeL ne p wt h (foot p b xs ++ [cx, cy, wt]) ((launchInsideM D leak fuel k qr (some wt) (some p) (some cx) (some cy) P).run h)
      (launchInside D leak fuel k qr P) := by
  have hch : P.chans.length = ne := o.nch rfl
  unfold launchInsideM launchInside
  simp only
  have S := traceLoop_sim (trace_sim h0 D leak fuel k p (axX D qr) (axY D qr)) (D.prof.nmax + 1) 0
    (segIdFrom D.prof.z 0 P.startC.z (D.prof.nmax + 1)) P h b xs wf am o
  generalize traceLoop (trace D leak fuel k (axX D qr) (axY D qr)) (D.prof.nmax + 1) 0 (segIdFrom D.prof.z 0 P.startC.z (D.prof.nmax + 1)) P = v at S ⊢
  cases v with
  | ub => exact HM.run_bind_ub S
  | fuel => exact HM.run_bind_fuel S
  | ok x =>
    obtain ⟨h1, b1, xs1, r1, o1, f1⟩ := S
    rw [HM.run_bind_ok r1, Out.bind_ok, HM.bind_ofCM (getPh_run o1.blk)]
    obtain ⟨a, ha, hm⟩ := o1.w
    have hn1 : (x.2.2.chans.map (·.w)).length = ne := by rw [List.length_map]; exact o1.nch rfl
    rw [ha, hch, HM.bind_ofCM (loadArr_run hm hn1)]
    have g1 := g.frame wf f1
    have r2 : (storeArr (some wt) (x.2.2.chans.map (·.w))).run h1 = some ((), { h1 with mem := upd h1.mem wt (some (.doubles (x.2.2.chans.map (·.w)))) }) := by
      have hn2 : x.2.2.chans.length = ne := o1.nch rfl
      simp [storeArr, run_bind, run_load, g1.w, run_store, hn2]
    have f2 : Frame [wt] [wt] h1 { h1 with mem := upd h1.mem wt (some (.doubles (x.2.2.chans.map (·.w)))) } :=
      ⟨fun _ h1 h2 => absurd h1 h2, fun x hx _ => upd_other _ _ (by simpa using hx), fun _ hx => .inl hx, le_refl _, rfl, fun x hx => by
        have := live_lt f1.wf g1.w
        simp only at hx ⊢
        rw [upd_other _ _ (by omega)]; exact f1.wf x hx⟩
    rw [HM.bind_ofCM r2]
    have o2 := o1.frame f1.wf f2 (fun y hy => by simp; rintro rfl; exact g1.nw hy)
    have x2 := (f2.other f1.wf g1.x (by simp; exact g1.wx.symm)).1
    have y2 := (f2.other f1.wf g1.y (by simp; exact g1.wy.symm)).1
    obtain ⟨h3, r3, o3, f3⟩ := leave_run f2.wf o2 x2 y2 g1.xy g1.nx g1.ny
    obtain ⟨w3, n3⟩ := f3.other f2.wf (a := wt) (b := .doubles (x.2.2.chans.map (·.w))) (by simp [upd]) (by simp [g1.nw, g1.wx, g1.wy])
    refine ⟨h3, b1.bare, xs1, by rw [HM.bind_ofCM r3]; rfl, o3, w3, n3, ?_⟩
    exact ((f1.add [cx, cy, wt]).trans wf (f2.ext (C' := foot p b1 xs1 ++ [cx, cy, wt]) (R := foot p b1 xs1 ++ [cx, cy])
      (by simp [or_comm, or_left_comm, or_assoc]) (by simp [or_comm, or_left_comm, or_assoc]))).trans wf (f3.ext (R := [wt]) (by simp [or_assoc]) (by simp))

/-! ## The leaks of an earlier launch -/

/-- the weights and the arrays of the leaks of an earlier launch -/
def dead (b : Ph) (xs : Bool → List (Nat × Nat)) (s : Bool) : List Nat := (xs s).map (·.2) ++ (b.arr s).toList

omit [CNum α] in
theorem dropWeights_run (a : Nat) (ps : List Ptr) : ∀ (xs : List (Nat × Nat)) (ls : List (Leak α)) (i : Nat) (h : Heap (Block α)),
    h.mem a = some (.ptrs ps) → (∀ (j : Nat) x, xs[j]? = some x → ps[i + j]? = some (some x.1)) →
    List.Forall₂ (fun x l => LeakAt h.mem x (lv l)) xs ls → (addrs xs).Nodup → a ∉ addrs xs →
    (dropWeights (some a) i xs.length).run h = some ((), { h with mem := without h.mem (xs.map (·.2)) })
  | [], _, i, h, _, _, _, _, _ => by simp [dropWeights, without_nil]
  | x :: xs, [], i, h, _, _, hf, _, _ => by cases hf
  | x :: xs, l :: ls, i, h, ha, hp, hf, hn, hna => by
    cases hf with
    | cons hx hf =>
    simp only [addrs, List.flatMap_cons, List.cons_append, List.nil_append, List.nodup_cons, List.mem_cons, not_or] at hn hna
    have ih := dropWeights_run a ps xs ls (i + 1) { h with mem := without h.mem [x.2] }
      (by simp [without, hna.2.1, ha]) (fun j y hy => by rw [show i + 1 + j = i + (j + 1) by omega]; exact hp (j + 1) y hy)
      (forall2_congr hf fun y hy => by
        have : y ≠ x.2 := fun e => hn.2.1 (e ▸ hy)
        simp [without, this]) hn.2.2 hna.2.2
    rw [List.length_cons, dropWeights]
    have hq : (ptrAt (some a) i).run h = some (some x.1, h) := by
      have := hp 0 x rfl
      simp only [Nat.add_zero] at this
      simp [ptrAt, run_bind, run_load, ha, this]
    have hl : (load (some x.1)).run h = some (.leak l.coords l.dir l.elecv l.weight.length (some x.2) l.n_refl, h) := by
      rw [run_load, hx.1]; rfl
    rw [run_bind_some hq, run_bind_some hl]
    simp only
    rw [run_bind_some (free_opt h (some x.2) (fun b hb => by injection hb with hb; subst hb; rw [hx.2]; simp))]
    simp only [Option.toList_some]
    rw [ih]
    simp only [without_append]
    rfl

omit [CNum α] in
theorem dropLeaks_run {h : Heap (Block α)} {q : Ptr} {xs : List (Nat × Nat)} {ls : List (Leak α)} (L : LArr h.mem q xs ls 0)
    (hn : (addrs xs ++ q.toList).Nodup) :
    (dropLeaks q xs.length).run h = some ((), { h with mem := without h.mem (xs.map (·.2) ++ q.toList) }) := by
  cases q with
  | none =>
    obtain ⟨rfl, -⟩ := L.null rfl
    simp [dropLeaks, without_nil]
  | some a =>
    have ha := L.arr a rfl
    simp only [List.replicate_zero, List.append_nil] at ha
    rw [List.nodup_append] at hn
    have hna : a ∉ addrs xs := fun hm => hn.2.2 a hm a (by simp) rfl
    have hn2 : a ∉ xs.map (·.2) := fun hm => hna (by
      obtain ⟨x, h1, h2⟩ := List.mem_map.mp hm
      exact List.mem_flatMap.2 ⟨x, h1, by simp [← h2]⟩)
    have r1 := dropWeights_run a _ xs ls 0 h ha (fun j x hx => by rw [Nat.zero_add, List.getElem?_map, hx]; rfl) L.leaks hn.1 hna
    simp only [dropLeaks, reduceCtorEq, if_false]
    rw [run_bind_some r1, free_opt _ (some a) (fun b hb => by injection hb with hb; subst hb; simp [without, hn2, ha])]
    simp only [without_append]

omit [CNum α] in
theorem sub_addrs {xs : List (Nat × Nat)} {a : Nat} (h : a ∈ xs.map (·.2)) : a ∈ addrs xs := by
  obtain ⟨x, h1, h2⟩ := List.mem_map.mp h
  exact List.mem_flatMap.2 ⟨x, h1, by simp [← h2]⟩

omit [CNum α] in
theorem Own.nodup_arr {m : Nat → Option (Block α)} {ne p : Nat} {act : Bool} {b : Ph} {xs : Bool → List (Nat × Nat)} {r : Bool → Nat}
    {P : Photon α} (o : Own m ne p act b xs r P) (s : Bool) : (addrs (xs s) ++ (b.arr s).toList).Nodup :=
  List.nodup_iff_count_le_one.mpr fun a => by
    have := o.one a
    rw [foot_count p b xs s] at this
    rw [List.count_append]; omega

omit [CNum α] in
/-- the arrays and the weights of the old leaks are released; their structs stay -/
theorem clearOld_run {h : Heap (Block α)} {ne p : Nat} {b : Ph} {xs : Bool → List (Nat × Nat)} {P : Photon α} {act : Bool}
    (o : Own h.mem ne p act b xs (fun _ => 0) P) :
    (clearOld (some p)).run h = some ((), ⟨upd (without h.mem (dead b xs true ++ dead b xs false)) p
      (some (Ph.blk { b with ext := none, int := none })), h.next, h.orc⟩) := by
  have hcnt : ∀ s, b.cnt s = (xs s).length := fun s => by rw [o.cnt s, o.len s]; rfl
  have one := o.one
  have hpd : ∀ s, p ∉ dead b xs s := fun s hm => by
    have := one p
    rw [foot_count p b xs s] at this
    simp only [List.count_singleton_self] at this
    rcases List.mem_append.mp hm with h1 | h1
    · have h2 := List.count_pos_iff.mpr (sub_addrs h1); omega
    · have h2 := List.count_pos_iff.mpr h1; omega
  have hdis : ∀ a ∈ addrs (xs false) ++ (b.arr false).toList, a ∉ dead b xs true := fun a ha hm => by
    have := one a
    rw [foot_count p b xs true] at this
    have h1 : 0 < (addrs (xs true)).count a + (b.arr true).toList.count a := by
      rcases List.mem_append.mp hm with h1 | h1
      · have h2 := List.count_pos_iff.mpr (sub_addrs h1); omega
      · have h2 := List.count_pos_iff.mpr h1; omega
    have h3 : 0 < (addrs (xs !true)).count a + (b.arr !true).toList.count a := by
      rcases List.mem_append.mp ha with h1 | h1 <;> have h2 := List.count_pos_iff.mpr h1 <;> simp only [Bool.not_true] <;> omega
    omega
  have r1 := dropLeaks_run (o.arrs true) (o.nodup_arr true)
  rw [← hcnt true] at r1
  set h1 : Heap (Block α) := { h with mem := without h.mem (dead b xs true) } with hh1
  have hp1 : h1.mem p = some b.blk := by simp only [hh1, without]; rw [if_neg (hpd true)]; exact o.blk
  set h2 : Heap (Block α) := { h1 with mem := upd h1.mem p (some ({ b with ext := none } : Ph).blk) } with hh2
  have L2 : LArr h2.mem (b.arr false) (xs false) (leaksOf P false) 0 := by
    refine (o.arrs false).congr fun a ha => ?_
    have hap : a ≠ p := by
      rintro rfl
      have := one a
      rw [foot_count a b xs false] at this
      simp only [List.count_singleton_self] at this
      rcases List.mem_append.mp ha with h1 | h1 <;> have h2 := List.count_pos_iff.mpr h1 <;> omega
    simp only [hh2, hh1]
    rw [upd_other _ _ hap]
    simp only [without]; rw [if_neg (hdis a ha)]
  have r3 := dropLeaks_run L2 (o.nodup_arr false)
  rw [← hcnt false] at r3
  have hp3 : without h2.mem (dead b xs false) p = some ({ b with ext := none } : Ph).blk := by
    simp only [without]; rw [if_neg (hpd false)]; simp [hh2]
  simp only [clearOld]
  rw [run_bind_some (getPh_run o.blk), run_bind_some (show (dropLeaks b.ext b.nE).run h = some ((), h1) from r1), run_bind_some (putPh_run hp1),
    run_bind_some (show (dropLeaks b.int b.nI).run h2 = some ((), { h2 with mem := without h2.mem (dead b xs false) }) from r3), putPh_run hp3]
  simp only [Option.some.injEq, Prod.mk.injEq, true_and, hh2, hh1]
  congr 1
  funext a
  simp only [upd, without, List.mem_append]
  grind

/-! ## The whole launch -/

/-- the pointers of a photon after the arrays of a launch were allocated -/
def started (n : Nat) (co : Bool) : Ph :=
  ⟨none, none, 0, 0, some n, some (n + 1), if co then some (n + 2) else none, if co then some (n + 3) else none⟩

theorem start_run {h : Heap (Block α)} (wf : h.WF) (am : Ample h) {p nE nI : Nat}
    (hp : h.mem p = some (Ph.blk ⟨none, none, nE, nI, none, none, none, none⟩)) (lib : Xray α) (D : Descr α) (es : List α) (P : Photon α) :
    ∃ h1 h2, (launchArrays (some p) es).run h = some ((some h.next, true), h1) ∧
      (if scatfRejects D es then (Pure.pure true : CM (Block α) Bool) else scatfM (some p) ((launchInit lib D es P).chans.map (·.amu))
        ((launchInit lib D es P).chans.map (·.scatf))).run h1 = some (true, h2) ∧
      Own h2.mem es.length p true (started (h.next + 1) (!scatfRejects D es)) (fun _ => []) (fun _ => 0) (launchInit lib D es P) ∧
      h2.mem h.next = some (.raw es.length) ∧ h.next ∉ foot p (started (h.next + 1) (!scatfRejects D es)) (fun _ => []) ∧
      Frame [p] (foot p (started (h.next + 1) (!scatfRejects D es)) (fun _ => []) ++ [h.next]) h h2 := by
  have hpl := live_lt wf hp
  have or_ : ∀ k, h.orc (h.next + k) = true := fun k => am _ (by omega)
  have o0 : h.orc h.next = true := or_ 0
  set n := h.next with hn
  have e1 : (launchInit lib D es P).chans.map (·.e) = es := by simp [launchInit, Function.comp_def]
  have e2 : (launchInit lib D es P).chans.map (·.w) = es.map (fun _ => lit 1) := by simp [launchInit, Function.comp_def]
  have hlen : (launchInit lib D es P).chans.length = es.length := by simp [launchInit]
  have hco : (launchInit lib D es P).coef = !scatfRejects D es := rfl
  set Q := launchInit lib D es P with hQ
  have hx : Q.ext = [] := rfl
  have hi : Q.int = [] := rfl
  have p1 : p ≠ n + 1 := by omega
  have p2 : p ≠ n + 2 := by omega
  have p3 : p ≠ n + 3 := by omega
  have p4 : p ≠ n + 4 := by omega
  set m1 : Nat → Option (Block α) := upd (upd (upd (upd h.mem n (some (.raw es.length))) (n + 1) (some (.doubles es))) (n + 2)
    (some (.doubles (es.map fun _ => lit 1)))) p (some (Ph.blk ⟨none, none, 0, 0, some (n + 1), some (n + 2), none, none⟩)) with hm1
  have r1 : (launchArrays (some p) es).run h = some ((some n, true), ⟨m1, n + 3, h.orc⟩) := by
    simp [launchArrays, getPh, putPh, Ph.blk, storeArr, run_bind, run_malloc, run_load, run_store, upd, o0, or_, Nat.add_assoc, ← hn, hpl.ne, p1, p2, p1.symm, p2.symm, hp]
    funext a
    simp only [hm1, upd, Ph.blk, List.map_const']
    clear hm1 m1 e1 e2 hlen hco hx hi hQ
    grind
  cases hr : scatfRejects D es with
  | true =>
    rw [hr] at hco
    refine ⟨_, _, r1, rfl, ?_, ?_, ?_, ?_⟩
    · exact own_fresh (n := n + 1) (p := p) hx hi hlen false hco (by omega) (by simp [hm1]) (by simp [hm1, upd, p1.symm, e1])
        (by simp [hm1, upd, p2.symm, e2]) (by simp) (by simp)
    · simp [hm1, upd, hpl.ne']
    · simp [foot, owned, addrs, started]; omega
    · have hm : ∀ a, a ∈ foot p (started (n + 1) (!true)) (fun _ => []) ++ [n] ↔ a = p ∨ (n ≤ a ∧ a < n + 3) := by
        intro a
        simp [foot, owned, addrs, started]
        omega
      refine ⟨fun a ha hc => ?_, fun a _ ha => ?_, fun a ha => ?_, by simp only; omega, rfl, fun a ha => ?_⟩
      · rw [hm] at hc; simp at ha; exact absurd (Or.inl ha) hc
      · rw [hm] at ha
        simp only [hm1]
        rw [upd_other _ _ (by omega), upd_other _ _ (by omega), upd_other _ _ (by omega), upd_other _ _ (by omega)]
      · rw [hm] at ha; simp; omega
      · simp only [hm1] at ha ⊢
        rw [upd_other _ _ (by omega), upd_other _ _ (by omega), upd_other _ _ (by omega), upd_other _ _ (by omega)]
        exact wf a (by omega)
  | false =>
    rw [hr] at hco
    set m2 : Nat → Option (Block α) := upd (upd (upd m1 (n + 3) (some (.doubles (Q.chans.map (·.amu))))) (n + 4)
      (some (.doubles (Q.chans.map (·.scatf))))) p (some (Ph.blk ⟨none, none, 0, 0, some (n + 1), some (n + 2), some (n + 3), some (n + 4)⟩)) with hm2
    have r2 : (scatfM (some p) (Q.chans.map (·.amu)) (Q.chans.map (·.scatf))).run (⟨m1, n + 3, h.orc⟩ : Heap (Block α)) = some (true, ⟨m2, n + 5, h.orc⟩) := by
      have hb : m1 p = some (Ph.blk ⟨none, none, 0, 0, some (n + 1), some (n + 2), none, none⟩) := by simp [hm1]
      rw [hm2]
      clear_value m1
      simp [scatfM, getPh, putPh, Ph.blk, storeArr, run_bind, run_malloc, run_load, run_store, upd, or_, Nat.add_assoc, hb, p3, p4, p3.symm, p4.symm]
      funext a
      simp only [upd]
      grind
    refine ⟨_, _, r1, by simpa using r2, ?_, ?_, ?_, ?_⟩
    · exact own_fresh (n := n + 1) (p := p) hx hi hlen true hco (by omega) (by simp [hm2])
        (by simp [hm2, hm1, upd, p1.symm, e1]) (by simp [hm2, hm1, upd, p2.symm, e2])
        (fun _ => by simp [hm2, hm1, upd, p3.symm]) (fun _ => by simp [hm2, hm1, upd, p4.symm])
    · simp [hm2, hm1, upd, hpl.ne']
    · simp [foot, owned, addrs, started]; omega
    · have hm : ∀ a, a ∈ foot p (started (n + 1) (!false)) (fun _ => []) ++ [n] ↔ a = p ∨ (n ≤ a ∧ a < n + 5) := by
        intro a
        simp [foot, owned, addrs, started]
        omega
      refine ⟨fun a ha hc => ?_, fun a _ ha => ?_, fun a ha => ?_, by simp only; omega, rfl, fun a ha => ?_⟩
      · rw [hm] at hc; simp at ha; exact absurd (Or.inl ha) hc
      · rw [hm] at ha
        simp only [hm2, hm1]
        rw [upd_other _ _ (by omega), upd_other _ _ (by omega), upd_other _ _ (by omega), upd_other _ _ (by omega), upd_other _ _ (by omega),
          upd_other _ _ (by omega), upd_other _ _ (by omega)]
      · rw [hm] at ha; simp; omega
      · simp only [hm2, hm1] at ha ⊢
        rw [upd_other _ _ (by omega), upd_other _ _ (by omega), upd_other _ _ (by omega), upd_other _ _ (by omega), upd_other _ _ (by omega),
          upd_other _ _ (by omega), upd_other _ _ (by omega)]
        exact wf a (by omega)

/-- what follows the axis arrays -/
def launchFrom (D : Descr α) (leak : Bool) (fuel k : Nat) (P : Photon α) (qr : Int × Int) : Out (Int × WOut α × Photon α) :=
  if startsInWall D qr P.startC then
    if leak && P.startC.z ==. lit 0 then do
      let x ← reflect D leak fuel k ⟨lit 0, lit 0, lit 1⟩ P
      .ok (2, .uninit, finish x.2)
    else if leak && P.startC.z >. lit 0 then do
      let w ← traceWall D fuel P.exitC (vnorm P.exitD)
      launchWall D leak fuel k { P with exitD := vnorm P.exitD } w
    else .ok (2, .uninit, finish P)
  else launchInside D leak fuel k qr P

theorem launchAxes_sim {ne p : Nat} (h0 : 0 < ne) (D : Descr α) (leak : Bool) (fuel k : Nat) (qr : Int × Int) (P : Photon α)
    {h : Heap (Block α)} {b : Ph} {xs : Bool → List (Nat × Nat)} (wf : h.WF) (am : Ample h) (o : Own h.mem ne p true b xs (fun _ => 0) P)
    {wt : Nat} (hw : h.mem wt = some (.raw ne)) (hnw : wt ∉ foot p b xs) :
    AgreeL ne p wt h (foot p b xs ++ [wt]) ((launchAxesM D leak fuel k qr (some wt) (some p) P).run h) (launchFrom D leak fuel k P qr) := by
  obtain ⟨h1, r1, m1, f1⟩ := malloc_run wf am (.raw (D.prof.nmax + 1))
  obtain ⟨h2, r2, m2, f2⟩ := malloc_run f1.wf (am.frame f1) (.raw (D.prof.nmax + 1))
  set cx := h.next with hcx
  set cy := h1.next with hcy
  have hlt : cx < cy := live_lt f1.wf m1
  have hwl := live_lt wf hw
  have o2 := (o.frame wf f1 (fun x _ => by simp)).frame f1.wf f2 (fun x _ => by simp)
  have am2 := (am.frame f1).frame f2
  have g : Axes h2 (foot p b xs) cx cy wt ne (D.prof.nmax + 1) :=
    ⟨(f2.other f1.wf m1 (by simp)).1, m2, (f2.other f1.wf (f1.other wf hw (by simp)).1 (by simp)).1,
      fun hm => by have := o.lt wf hm; omega, fun hm => by have := o.lt wf hm; omega, hnw, by omega, by omega, by omega⟩
  have F2 : Frame (foot p b xs ++ [wt]) (foot p b xs ++ [cx, cy, wt]) h h2 :=
    (f1.ext (C' := foot p b xs ++ [cx, wt]) (R := foot p b xs ++ [wt]) (by simp) (by simp [or_left_comm])).trans wf
      (f2.ext (R := foot p b xs ++ [cx, wt]) (by simp) (by simp [or_left_comm]))
  simp only [launchAxesM]
  rw [HM.bind_ofCM r1]
  simp only [reduceCtorEq, if_false]
  rw [HM.bind_ofCM r2]
  simp only [reduceCtorEq, if_false]
  unfold launchFrom
  by_cases hs : startsInWall D qr P.startC = true
  · rw [if_pos hs, if_pos hs]
    by_cases hl : (leak && P.startC.z ==. lit 0) = true
    · rw [if_pos hl, if_pos hl]
      have S := reflect_sim h0 D leak fuel k p ⟨lit 0, lit 0, lit 1⟩ P h2 b xs f2.wf am2 o2
      cases hv : reflect D leak fuel k ⟨lit 0, lit 0, lit 1⟩ P with
      | ub => rw [hv] at S; exact HM.run_bind_ub S
      | fuel => rw [hv] at S; exact HM.run_bind_fuel S
      | ok x =>
        rw [hv] at S
        obtain ⟨h3, b3, xs3, r3, o3, f3⟩ := S
        rw [HM.run_bind_ok r3, Out.bind_ok]
        exact leave_agree wf f3.wf o3 (g.frame f2.wf f3) (F2.trans wf (f3.add [cx, cy, wt])) 2 rfl rfl rfl rfl
    · rw [if_neg hl, if_neg hl]
      by_cases hz : (leak && P.startC.z >. lit 0) = true
      · rw [if_pos hz, if_pos hz]
        cases hv : traceWall D fuel P.exitC (vnorm P.exitD) with
        | ub => rfl
        | fuel => rfl
        | ok w =>
          rw [HM.bind_ofOut rfl, Out.bind_ok]
          obtain ⟨h3, r3, f3⟩ := wallTemp_run f2.wf am2 D P.exitC (vnorm P.exitD) w
          rw [HM.bind_ofCM r3]
          have o3 : Own h3.mem ne p true b xs (fun _ => 0) { P with exitD := vnorm P.exitD } :=
            (o2.frame f2.wf f3 (fun x _ => by simp)).same rfl rfl rfl rfl
          have f3' : Frame (foot p b xs) (foot p b xs) h2 h3 := f3.ext (R := foot p b xs) (by simp) (by simp)
          exact (launchWall_sim h0 D leak fuel k _ w f3.wf (am2.frame f3) o3 (g.frame f2.wf f3')).after wf (F2.trans wf (f3'.add [cx, cy, wt]))
      · rw [if_neg hz, if_neg hz]
        exact leave_agree wf f2.wf o2 g F2 2 rfl rfl rfl rfl
  · rw [if_neg hs, if_neg hs]
    exact (launchInside_sim h0 D leak fuel k qr P f2.wf am2 o2 g).after wf F2

theorem launchBody_eq (lib : Xray α) (D : Descr α) (leak : Bool) (fuel k : Nat) (P : Photon α) (es : List α) :
    launchBody lib D leak fuel k P es = match launchCap D (launchInit lib D es P).startC with
      | none => .ok (-2, .uninit, finish (launchInit lib D es P))
      | some qr => launchFrom D leak fuel k (launchInit lib D es P) qr := rfl

/-- **C81 (agreement with the value model).**  With enough memory, a launch of a photon that is not being launched computes on the heap
exactly what `launch` computes: the same return value, the same photon (its leaks are in the photon's arrays), and `*weights` is a fresh
array holding the returned weights (not initialised when the launch returns none).  Where `launch` is undefined or does not end, so is the
heap computation. -/
theorem launch_memory (lib : Xray α) (D : Descr α) (leak : Bool) (fuel k : Nat) (es : List α) (hes : es ≠ []) (hb : es.any energyBad = false)
    {h : Heap (Block α)} (wf : h.WF) (am : Ample h) {n0 p : Nat} {b : Ph} {xs : Bool → List (Nat × Nat)} {P : Photon α}
    (o : Own h.mem n0 p false b xs (fun _ => 0) P) :
    match launch lib (some D) leak fuel k (some P) (some es) true with
    | .ok (c, w, some P') => ∃ h' a b' xs', (launchM lib (some D) leak fuel k (some p) P (some es) true).run h = .ok ((c, some (some a), P'), h') ∧
        h'.mem a = some (WBlk es.length w) ∧ Own h'.mem es.length p false b' xs' (fun _ => 0) P' ∧ a ∉ foot p b' xs' ∧
        (∀ x ∈ a :: foot p b' xs', x = p ∨ h.mem x = none) ∧
        (∀ x, x ∉ a :: foot p b' xs' → h'.mem x = without h.mem (dead b xs true ++ dead b xs false) x) ∧ h'.WF ∧ Ample h'
    | .ok (_, _, none) => False
    | .ub => (launchM lib (some D) leak fuel k (some p) P (some es) true).run h = .ub
    | .fuel => (launchM lib (some D) leak fuel k (some p) P (some es) true).run h = .fuel := by
  have hpl := o.lt wf (mem_foot.mpr (by simp) : p ∈ foot p b xs)
  have hg : (es.isEmpty || es.any energyBad || !true) = false := by cases es <;> simp_all
  have h0 : 0 < es.length := List.length_pos_iff.mpr hes
  have e1 : b.en = none := o.en
  have e2 : b.w = none := o.w
  have e3 : b.amu = none := o.amu
  have e4 : b.sc = none := o.sc
  have rc := clearOld_run o
  set h1 : Heap (Block α) := ⟨upd (without h.mem (dead b xs true ++ dead b xs false)) p (some (Ph.blk { b with ext := none, int := none })), h.next, h.orc⟩ with hh1
  have wf1 : h1.WF := fun x hx => by
    simp only [hh1] at hx ⊢
    rw [upd_other _ _ (by omega)]
    simp only [without]; split
    · rfl
    · exact wf x hx
  have am1 : Ample h1 := fun n hn => am n hn
  have hp1 : h1.mem p = some (Ph.blk ⟨none, none, b.nE, b.nI, none, none, none, none⟩) := by
    simp only [hh1, upd_same]; congr 2; rw [e1, e2, e3, e4]
  obtain ⟨h2, h3, r2, r3, o3, w3, n3, f3⟩ := start_run wf1 am1 hp1 lib D es P
  -- the launch proper
  have main : AgreeL es.length p h1.next h3 (foot p (started (h1.next + 1) (!scatfRejects D es)) (fun _ => []) ++ [h1.next])
      ((match launchCap D (launchInit lib D es P).startC with
        | none => (do
          HM.ofCM (freeWork (some p))
          Pure.pure (-2, finish (launchInit lib D es P)) : HM (Block α) (Int × Photon α))
        | some qr => launchAxesM D leak fuel k qr (some h1.next) (some p) (launchInit lib D es P)).run h3)
      (launchBody lib D leak fuel k P es) := by
    rw [launchBody_eq]
    cases launchCap D (launchInit lib D es P).startC with
    | none =>
      obtain ⟨h4, r4, o4, f4⟩ := freeWork_run f3.wf o3
      obtain ⟨w4, n4⟩ := f4.other f3.wf w3 n3
      exact ⟨h4, _, _, by simp only; rw [HM.bind_ofCM r4]; rfl, o4, w4, n4, f4.add [h1.next]⟩
    | some qr => exact launchAxes_sim h0 D leak fuel k qr _ f3.wf (am1.frame f3) o3 w3 n3
  have runEq : (launchM lib (some D) leak fuel k (some p) P (some es) true).run h =
      ((match launchCap D (launchInit lib D es P).startC with
        | none => (do
          HM.ofCM (freeWork (some p))
          Pure.pure (-2, finish (launchInit lib D es P)) : HM (Block α) (Int × Photon α))
        | some qr => launchAxesM D leak fuel k qr (some h1.next) (some p) (launchInit lib D es P)).run h3) >>=
        fun y => .ok ((y.1.1, some (some h1.next), y.1.2), y.2) := by
    simp only [launchM, reduceCtorEq, if_false, hg, Bool.false_eq_true]
    rw [HM.bind_ofCM rc]
    simp only [launchBodyM]
    show ((HM.ofCM (launchArrays (some p) es) >>= _) >>= _ : HM (Block α) _).run h1 = _
    have assoc : ∀ {A B C : Type} (x : HM (Block α) A) (f : A → HM (Block α) B) (g : B → HM (Block α) C) (h : Heap (Block α)),
        ((x >>= f) >>= g).run h = (x.run h >>= fun y => (f y.1).run y.2) >>= fun y => (g y.1).run y.2 := fun _ _ _ _ => rfl
    rw [assoc, HM.run_ofCM r2, Out.bind_ok]
    simp only [Bool.not_true, Bool.false_eq_true, if_false]
    rw [HM.bind_ofCM r3]
    simp only [Bool.not_true, Bool.false_eq_true, if_false]
    cases launchCap D (launchInit lib D es P).startC with
    | none =>
      simp only
      obtain ⟨h4, r4, -, -⟩ := freeWork_run f3.wf o3
      rw [HM.bind_ofCM r4, HM.bind_ofCM r4]
      rfl
    | some qr =>
      simp only
      cases hv : (launchAxesM D leak fuel k qr (some h1.next) (some p) (launchInit lib D es P)).run h3 with
      | ub => rw [HM.run_bind_ub hv]; rfl
      | fuel => rw [HM.run_bind_fuel hv]; rfl
      | ok y => rw [HM.run_bind_ok hv]; rfl
  have hlaunch : launch lib (some D) leak fuel k (some P) (some es) true =
      (launchBody lib D leak fuel k P es >>= fun x => .ok (x.1, x.2.1, some x.2.2)) := by
    simp only [launch, hg, Bool.false_eq_true, if_false]
  rw [runEq, hlaunch]
  cases hv : launchBody lib D leak fuel k P es with
  | ub => rw [hv] at main; rw [show _ = Out.ub from main]; rfl
  | fuel => rw [hv] at main; rw [show _ = Out.fuel from main]; rfl
  | ok x =>
    rw [hv] at main
    obtain ⟨h4, b4, xs4, r4, o4, w4, n4, f4⟩ := main
    have F := f3.trans wf1 f4
    rw [r4]
    refine ⟨h4, h1.next, b4, xs4, rfl, w4, o4, n4, fun y hy => ?_, fun y hy => ?_, f4.wf, (am1.frame F)⟩
    · rcases F.fresh y (by simpa [or_comm] using hy) with h5 | h5
      · left; simpa using h5
      · right; exact wf y h5
    · have hyp : y ≠ p := by
        rintro rfl
        exact hy (by simp [mem_foot])
      rw [F.keep y (by simpa using hyp) (by simpa [or_comm] using hy)]
      simp only [hh1]
      rw [upd_other _ _ hyp]

end Polycap.LMem
