import Verif.Props.SimExample
import Verif.Props.LeakOff

/-!
# C95: asking for leaks changes nothing else in the results of a simulation

`polycap_source_get_transmission_efficiencies` has a switch for the calculation of leaks.  With it the simulation goes through two more
barriers, a single section and another critical section, it carries leak arrays from photon to photon, and every photon is traced with
leaks.  A user who turns it on expects the efficiencies, the counters and the start and exit images to be what they are without it.
-/
namespace Polycap
open CNum

set_option linter.unusedSectionVars false

section generic
variable {α : Type} [CNum α]

/-- One photon of the simulation with leaks (`a`) and without (`a0`): the same source point and return value, and if it is transmitted the
same weights and the same photon except for the leak records. -/
structure AttSame (a a0 : Attempt α) : Prop where
  code : a0.code = a.code
  src : a0.src = a.src
  wts : a.code = 1 → a0.wts = a.wts
  ph : a.code = 1 → a0.ph = { a.ph with ext := [], int := [] }
  alloc : a0.wts.isUntouched = false

/-- the results of a simulation without what it says about leaks -/
def TE.noLeaks (r : TE α) : TE α :=
  { r with iExt := 0, iInt := 0, extL := fun _ => none, extW := fun _ => none, intL := fun _ => none, intW := fun _ => none }

/-- the same simulation without leaks -/
def Cfg.quiet (C : Cfg α) (att0 : Nat → Nat → Out (Attempt α × Nat)) : Cfg α := { C with leak := false, att := att0 }

def Shared.quiet (sh : Shared α) : Shared α :=
  { sh with iExt := 0, iInt := 0, alloc := none, extN := 0, intN := 0, extL := fun _ => none, extW := fun _ => none,
            intL := fun _ => none, intW := fun _ => none }

/-- where a thread with leaks is, and where the same thread without leaks is -/
inductive PcSame : Pc α → Pc α → Prop
  | work (j r) : PcSame (.work j r) (.work j r)
  | save (j r a a0) (h : AttSame a a0) (h1 : a.code = 1) : PcSame (.save j a r) (.save j a0 r)
  | refl (n r) : PcSame (.refl n r) (.refl n r)
  | forEnd : PcSame .forEnd .forEnd
  | sum : PcSame .sum .sum
  | after (p) (h : 3 ≤ p.rank) : PcSame p .done

structure ThrSame (th th0 : Thr α) : Prop where
  pc : PcSame th.pc th0.pc
  pos : th0.pos = th.pos
  prog : th0.prog = th.prog
  weights : th0.weights = th.weights

structure StSame (s s0 : St α) : Prop where
  sh : s0.sh = s.sh.quiet
  thr : ∀ t, ThrSame (s.thr t) (s0.thr t)

theorem PcSame.rank {p p0 : Pc α} (h : PcSame p p0) : 1 ≤ p0.rank ↔ 1 ≤ p.rank := by
  cases h with
  | after p h => exact ⟨fun _ => by omega, fun _ => by simp [Pc.rank]⟩
  | save => simp [Pc.rank]
  | _ => exact Iff.rfl

theorem nextPc_same (r : List Nat) : PcSame (nextPc r : Pc α) (nextPc r) := by
  cases r
  · exact .forEnd
  · exact .work _ _

theorem allAt_same (C : Cfg α) (att0) {s s0 : St α} (h : StSame s s0) : allAt (C.quiet att0) s0 1 = allAt C s 1 := by
  unfold allAt
  congr 1
  apply propext
  exact forall_congr' fun i => forall_congr' fun _ => (h.thr i).pc.rank

theorem StSame.set {s s0 : St α} (h : StSame s s0) (t : Nat) {th th0 : Thr α} {sh sh0 : Shared α} (ht : ThrSame th th0) (hs : sh0 = sh.quiet) :
    StSame (s.set t (th, sh)) (s0.set t (th0, sh0)) := by
  refine ⟨hs, fun i => ?_⟩
  simp only [St.set, upd1]
  split
  · exact ht
  · exact h.thr i

theorem StSame.stay {s s0 : St α} (h : StSame s s0) (t : Nat) {th : Thr α} {sh : Shared α} (ht : ThrSame th (s0.thr t)) (hs : sh.quiet = s.sh.quiet) :
    StSame (s.set t (th, sh)) s0 := by
  refine ⟨h.sh.trans hs.symm, fun i => ?_⟩
  simp only [St.set, upd1]
  split
  · rename_i e; subst e; exact ht
  · exact h.thr i

theorem putExt_quiet {ne : Nat} {sh sh' : Shared α} {l : Leak α} (h : putExt ne sh l = .ok sh') : sh'.quiet = sh.quiet := by
  unfold putExt at h
  split at h
  · cases h
  · split at h
    · injection h with h; subst h; rfl
    · cases h

theorem putInt_quiet {ne : Nat} {sh sh' : Shared α} {l : Leak α} (h : putInt ne sh l = .ok sh') : sh'.quiet = sh.quiet := by
  unfold putInt at h
  split at h
  · cases h
  · split at h
    · injection h with h; subst h; rfl
    · cases h

theorem putAll_quiet {put : Shared α → Leak α → Out (Shared α)} (hp : ∀ sh l sh', put sh l = .ok sh' → sh'.quiet = sh.quiet) :
    ∀ (ls : List (Leak α)) (sh sh' : Shared α), putAll put sh ls = .ok sh' → sh'.quiet = sh.quiet := by
  intro ls
  induction ls with
  | nil => intro sh sh' h; injection h with h; subst h; rfl
  | cons l ls ih =>
    intro sh sh' h
    unfold putAll at h
    rw [Out.bind_eq_ok] at h
    obtain ⟨x, hx, h⟩ := h
    exact (ih _ _ h).trans (hp _ _ _ hx)

theorem simCode_same (D : Descr α) {a a0 : Attempt α} (h : AttSame a a0) : simCode D a0 = simCode D a := by
  unfold simCode
  rw [h.code]
  split
  · rename_i h1
    rw [h.ph h1]
    rfl
  · rfl

theorem simCode_one {D : Descr α} {a : Attempt α} (h : simCode D a = 1) : a.code = 1 := by
  unfold simCode at h
  split at h
  · assumption
  · assumption

theorem startRec_same {a a0 : Attempt α} (h : AttSame a a0) (h1 : a.code = 1) : startRec a0 = startRec a := by
  unfold startRec
  rw [h.ph h1, h.src]

theorem exitRec_bare (p : Profile α) (P : Photon α) : exitRec p { P with ext := [], int := [] } = exitRec p P := rfl

theorem countCode_quiet (t : Nat) {a a0 : Attempt α} (h : a0.code = a.code) (sh : Shared α) :
    countCode t a0 sh.quiet = (countCode t a sh).quiet := by
  unfold countCode Shared.quiet
  rw [h]

theorem passLeaks_same {C : Cfg α} {a b : Attempt α} {th th' : Thr α} (h : passLeaks C a th = .ok (b, th')) :
    b.code = a.code ∧ b.src = a.src ∧ b.wts = a.wts ∧ (({ b.ph with ext := [], int := [] } : Photon α) = { a.ph with ext := [], int := [] }) ∧
    th'.pos = th.pos ∧ th'.prog = th.prog ∧ th'.weights = th.weights ∧ th'.hist = th.hist := by
  unfold passLeaks at h
  split at h
  · rw [Out.bind_eq_ok] at h
    obtain ⟨ce, -, h⟩ := h
    rw [Out.bind_eq_ok] at h
    obtain ⟨ci, -, h⟩ := h
    injection h with h; injection h with h1 h2
    subst h1 h2
    exact ⟨rfl, rfl, rfl, rfl, rfl, rfl, rfl, rfl⟩
  · injection h with h; injection h with h1 h2
    subst h1 h2
    exact ⟨rfl, rfl, rfl, rfl, rfl, rfl, rfl, rfl⟩

theorem keepLeaks_same {C : Cfg α} {c : Int} {a : Attempt α} {th th' : Thr α} (h : keepLeaks C c a th = .ok th') :
    th'.pos = th.pos ∧ th'.prog = th.prog ∧ th'.weights = th.weights ∧ th'.hist = th.hist := by
  unfold keepLeaks at h
  split at h
  · rw [Out.bind_eq_ok] at h
    obtain ⟨ce, -, h⟩ := h
    rw [Out.bind_eq_ok] at h
    obtain ⟨ci, -, h⟩ := h
    injection h with h
    subst h
    exact ⟨rfl, rfl, rfl, rfl⟩
  · injection h with h
    subst h
    exact ⟨rfl, rfl, rfl, rfl⟩

theorem workStep_hist {C : Cfg α} {t j : Nat} {r : List Nat} {th th' : Thr α} {sh sh' : Shared α} {a : Attempt α} {pos : Nat}
    (h : workStep C t j r th sh a pos = .ok (th', sh')) : th'.hist = th.hist ++ [(j, a)] := by
  unfold workStep at h
  simp only at h
  split at h
  · split at h
    · cases h
    rw [Out.bind_eq_ok] at h
    obtain ⟨⟨b, th1⟩, hx, h⟩ := h
    injection h with h; injection h with h1 h2; subst h1
    exact (passLeaks_same hx).2.2.2.2.2.2.2
  · rw [Out.bind_eq_ok] at h
    obtain ⟨th1, hx, h⟩ := h
    split at h
    · cases h
    split at h
    · injection h with h; injection h with h1 h2; subst h1
      exact (keepLeaks_same hx).2.2.2
    · cases h

theorem workStep_same {C : Cfg α} {att0 : Nat → Nat → Out (Attempt α × Nat)} {t j : Nat} {r : List Nat} {th th0 th' : Thr α} {sh sh' : Shared α} {a a0 : Attempt α} {pos : Nat}
    (ha : AttSame a a0) (ht : ThrSame th th0) (h : workStep C t j r th sh a pos = .ok (th', sh')) :
    ∃ th0', workStep (C.quiet att0) t j r th0 sh.quiet a0 pos = .ok (th0', sh'.quiet) ∧ ThrSame th' th0' := by
  have hc : simCode (C.quiet att0).D a0 = simCode C.D a := simCode_same _ ha
  unfold workStep at h ⊢
  simp only [hc, countCode_quiet t ha.code] at h ⊢
  by_cases h1 : simCode C.D a = 1
  · rw [if_pos h1] at h ⊢
    have c1 := simCode_one h1
    by_cases hj : C.n ≤ j
    · rw [if_pos hj] at h; cases h
    rw [if_neg hj] at h
    rw [if_neg (show ¬ (C.quiet att0).n ≤ j from hj)]
    rw [Out.bind_eq_ok] at h
    obtain ⟨⟨b, th1⟩, hx, h⟩ := h
    injection h with h; injection h with e1 e2
    obtain ⟨p1, p2, p3, p4, p5, p6, p7, -⟩ := passLeaks_same hx
    have : passLeaks (C.quiet att0) a0 { th0 with pos := pos, hist := th0.hist ++ [(j, a0)] } = .ok (a0, { th0 with pos := pos, hist := th0.hist ++ [(j, a0)] }) := by
      unfold passLeaks
      exact if_neg (by simp [Cfg.quiet])
    rw [this, Out.bind_ok]
    refine ⟨{ th0 with pos := pos, hist := th0.hist ++ [(j, a0)], pc := .save j a0 r }, ?_, ?_⟩
    · rw [← e2, startRec_same ha c1]
      rfl
    · rw [← e1]
      refine ⟨?_, p5.symm, ht.prog.trans p6.symm, ht.weights.trans p7.symm⟩
      simp only at p1 p2 p3 p4
      refine .save _ _ _ _ ⟨ha.code.trans p1.symm, ha.src.trans p2.symm, fun _ => (ha.wts c1).trans p3.symm, fun _ => (ha.ph c1).trans p4.symm, ha.alloc⟩ ?_
      exact p1.trans c1
  · rw [if_neg h1] at h ⊢
    rw [Out.bind_eq_ok] at h
    obtain ⟨th1, hx, h⟩ := h
    obtain ⟨p5, p6, p7, -⟩ := keepLeaks_same hx
    have : keepLeaks (C.quiet att0) (simCode C.D a) a0 { th0 with pos := pos, hist := th0.hist ++ [(j, a0)] } = .ok { th0 with pos := pos, hist := th0.hist ++ [(j, a0)] } := by
      unfold keepLeaks
      exact if_neg (by simp [Cfg.quiet])
    rw [this, Out.bind_ok, ha.alloc]
    simp only [Bool.false_eq_true, if_false]
    split at h
    · cases h
    by_cases hr : simRetry (simCode C.D a) = true
    · rw [if_pos hr] at h ⊢
      injection h with h; injection h with e1 e2
      refine ⟨{ th0 with pos := pos, hist := th0.hist ++ [(j, a0)], pc := .work j r }, by rw [← e2], ?_⟩
      rw [← e1]
      exact ⟨.work _ _, p5.symm, ht.prog.trans p6.symm, ht.weights.trans p7.symm⟩
    · rw [if_neg hr] at h; cases h

theorem saveStep_same {C : Cfg α} (hl : C.leak = true) {att0 : Nat → Nat → Out (Attempt α × Nat)} {t j : Nat} {r : List Nat} {th th0 th' : Thr α} {sh sh' : Shared α} {a a0 : Attempt α}
    (ha : AttSame a a0) (h1 : a.code = 1) (ht : ThrSame th th0) (h : saveStep C t j a r th sh = .ok (th', sh')) :
    th'.hist = th.hist ∧ ∃ th0', saveStep (C.quiet att0) t j a0 r th0 sh.quiet = .ok (th0', sh'.quiet) ∧ ThrSame th' th0' := by
  unfold saveStep at h ⊢
  have hrep : reports (C.quiet att0) t th0.prog = reports C t th.prog := by rw [ht.prog]; rfl
  have hnp : nextProg (C.quiet att0) t th0.prog = nextProg C t th.prog := by rw [ht.prog]; rfl
  rw [hrep, ha.wts h1]
  change _ ∧ ∃ th0', (if (reports C t th.prog && decide (C.n / C.T = 0 ∨ j * 100 ≥ 2147483648)) = true then _ else _) = _ ∧ _
  split at h
  · cases h
  rename_i hne
  rw [if_neg hne]
  generalize a.wts = w at h ⊢
  cases w with
  | untouched => cases h
  | uninit => cases h
  | filled ws =>
    simp only at h ⊢
    change _ ∧ ∃ th0', (if ws.length < C.ne ∨ C.n ≤ j then _ else _) = _ ∧ _
    split at h
    · cases h
    rename_i hn
    rw [if_neg hn]
    rw [Out.bind_eq_ok] at h
    obtain ⟨e, he, h⟩ := h
    rw [Out.bind_eq_ok] at h
    obtain ⟨i, hi, h⟩ := h
    injection h with h; injection h with e1 e2
    refine ⟨by rw [← e1], { th0 with weights := List.zipWith (· +. ·) th0.weights (ws.take C.ne), prog := nextProg (C.quiet att0) t th0.prog, pc := .refl a0.ph.i_refl r }, Eq.trans (if_neg (by simp [Cfg.quiet])) ?_, ?_⟩
    · rw [← e2, ha.ph h1]
      rfl
    · rw [← e1]
      refine ⟨?_, ht.pos, hnp, ?_⟩
      · show PcSame (.refl a.ph.i_refl r) (.refl a0.ph.i_refl r)
        rw [ha.ph h1]
        exact .refl _ _
      · show List.zipWith _ th0.weights _ = List.zipWith _ th.weights _
        rw [ht.weights]

/-- the photons a thread has simulated are never forgotten -/
theorem tstep_hist {C : Cfg α} {t : Nat} {s s' : St α} (h : tstep C t s = .next s') (i : Nat) : (s.thr i).hist <+: (s'.thr i).hist := by
  have key : ∀ (th' : Thr α) (sh' : Shared α), (s.thr t).hist <+: th'.hist → (s.thr i).hist <+: ((s.set t (th', sh')).thr i).hist := by
    intro th' sh' hp
    simp only [St.set, upd1]
    split
    · rename_i e; subst e; exact hp
    · exact List.prefix_rfl
  unfold tstep at h
  simp only at h
  split at h
  · rename_i j rest hpc
    generalize hx : (do let x ← C.att t (s.thr t).pos; workStep C t j rest (s.thr t) s.sh x.1 x.2) = o at h
    cases o with
    | ub => cases h
    | fuel => cases h
    | ok y =>
      injection h with h; subst h
      rw [Out.bind_eq_ok] at hx
      obtain ⟨x, -, hx⟩ := hx
      exact key _ _ (by rw [workStep_hist hx]; exact List.prefix_append _ _)
  · rename_i j a rest hpc
    generalize hx : saveStep C t j a rest (s.thr t) s.sh = o at h
    cases o with
    | ub => cases h
    | fuel => cases h
    | ok y =>
      injection h with h; subst h
      refine key _ _ ?_
      unfold saveStep at hx
      split at hx
      · cases hx
      split at hx
      · split at hx
        · cases hx
        split at hx
        · rw [Out.bind_eq_ok] at hx
          obtain ⟨e, he, hx⟩ := hx
          rw [Out.bind_eq_ok] at hx
          obtain ⟨i, hi, hx⟩ := hx
          injection hx with hx; rw [← hx]
        · injection hx with hx; rw [← hx]
      · cases hx
  · injection h with h; subst h; exact key _ _ List.prefix_rfl
  · split at h
    · injection h with h; subst h; exact key _ _ List.prefix_rfl
    · cases h
  · injection h with h; subst h; exact key _ _ List.prefix_rfl
  · split at h
    · injection h with h; subst h; exact key _ _ List.prefix_rfl
    · cases h
  · split at h
    · injection h with h; subst h; exact key _ _ List.prefix_rfl
    · injection h with h; subst h; exact key _ _ List.prefix_rfl
  · split at h
    · injection h with h; subst h; exact key _ _ List.prefix_rfl
    · cases h
  · generalize hx : (do
      let sh ← putAll (putExt C.ne) s.sh (s.thr t).ext.items
      let sh ← putAll (putInt C.ne) sh (s.thr t).int.items
      Out.ok (({ s.thr t with pc := .done } : Thr α), sh)) = o at h
    cases o with
    | ub => cases h
    | fuel => cases h
    | ok y =>
      injection h with h; subst h
      rw [Out.bind_eq_ok] at hx
      obtain ⟨x, -, hx⟩ := hx
      rw [Out.bind_eq_ok] at hx
      obtain ⟨x', -, hx⟩ := hx
      injection hx with hx; rw [← hx]
      exact key _ _ List.prefix_rfl
  · cases h

/-- a step with leaks is a step without, or nothing -/
theorem tstep_same {C : Cfg α} (hl : C.leak = true) {att0 : Nat → Nat → Out (Attempt α × Nat)} {t : Nat} {s s0 s' : St α}
    (hs : StSame s s0) (h : tstep C t s = .next s')
    (H : ∀ x ∈ (s'.thr t).hist, ∀ p q, C.att t p = .ok (x.2, q) → ∃ a0, att0 t p = .ok (a0, q) ∧ AttSame x.2 a0) :
    ∃ s0', (tstep (C.quiet att0) t s0 = .next s0' ∨ s0' = s0) ∧ StSame s' s0' := by
  have hthr := hs.thr t
  have hpc := hthr.pc
  unfold tstep at h
  simp only at h
  generalize hp : (s.thr t).pc = p at h hpc
  generalize hp0 : (s0.thr t).pc = p0 at hpc
  cases hpc with
  | work j r =>
    simp only at h
    generalize hx : (do let x ← C.att t (s.thr t).pos; workStep C t j r (s.thr t) s.sh x.1 x.2) = o at h
    cases o with
    | ub => cases h
    | fuel => cases h
    | ok y =>
      injection h with h; subst h
      obtain ⟨th', sh'⟩ := y
      rw [Out.bind_eq_ok] at hx
      obtain ⟨⟨a, pos⟩, ha, hx⟩ := hx
      have hh := workStep_hist hx
      obtain ⟨a0, ha0, hsame⟩ := H (j, a) (by simp only [St.set, upd1, if_pos]; rw [hh]; simp) _ _ ha
      obtain ⟨th0', w1, w2⟩ := workStep_same (att0 := att0) hsame hthr hx
      refine ⟨s0.set t (th0', sh'.quiet), Or.inl ?_, hs.set t w2 rfl⟩
      unfold tstep
      simp only [hp0, hs.sh, hthr.pos]
      show Res.of s0 t (do let x ← att0 t (s.thr t).pos; _) = _
      rw [ha0, Out.bind_ok, w1]
      rfl
  | save j r a a0 ha h1 =>
    simp only at h
    generalize hx : saveStep C t j a r (s.thr t) s.sh = o at h
    cases o with
    | ub => cases h
    | fuel => cases h
    | ok y =>
      injection h with h; subst h
      obtain ⟨th', sh'⟩ := y
      obtain ⟨-, th0', w1, w2⟩ := saveStep_same hl (att0 := att0) ha h1 hthr hx
      refine ⟨s0.set t (th0', sh'.quiet), Or.inl ?_, hs.set t w2 rfl⟩
      unfold tstep
      simp only [hp0, hs.sh, w1]
      rfl
  | refl n r =>
    injection h with h; subst h
    refine ⟨s0.set t ({ s0.thr t with pc := nextPc r }, { s0.sh with irefl := s0.sh.irefl + n }), Or.inl (by unfold tstep; simp only [hp0]), hs.set t ⟨nextPc_same r, hthr.pos, hthr.prog, hthr.weights⟩ ?_⟩
    rw [hs.sh]; rfl
  | forEnd =>
    simp only at h
    split at h
    · rename_i hal
      injection h with h; subst h
      refine ⟨s0.set t ({ s0.thr t with pc := .sum }, s0.sh), Or.inl ?_, hs.set t ⟨.sum, hthr.pos, hthr.prog, hthr.weights⟩ hs.sh⟩
      unfold tstep
      simp only [hp0, allAt_same C att0 hs, hal, if_true]
    · cases h
  | sum =>
    simp only [hl, if_true] at h
    injection h with h; subst h
    refine ⟨s0.set t ({ s0.thr t with pc := .done }, { s0.sh with sumW := List.zipWith (· +. ·) s0.sh.sumW (s0.thr t).weights }),
      Or.inl (by unfold tstep; simp only [hp0]; rfl), hs.set t ⟨.after _ (le_refl _), hthr.pos, hthr.prog, hthr.weights⟩ ?_⟩
    rw [hs.sh, hthr.weights]; rfl
  | after p h3 =>
    have keep : ∀ (p' : Pc α) (sh' : Shared α), 3 ≤ p'.rank → sh'.quiet = s.sh.quiet → StSame (s.set t ({ s.thr t with pc := p' }, sh')) s0 := by
      intro p' sh' hp' hsh
      refine hs.stay t ⟨?_, hthr.pos, hthr.prog, hthr.weights⟩ hsh
      rw [hp0]
      exact .after _ hp'
    refine ⟨s0, Or.inr rfl, ?_⟩
    cases p with
    | work => simp [Pc.rank] at h3
    | save => simp [Pc.rank] at h3
    | refl => simp [Pc.rank] at h3
    | forEnd => simp [Pc.rank] at h3
    | sum => simp [Pc.rank] at h3
    | barrier =>
      simp only at h
      split at h
      · injection h with h; subst h; exact keep _ _ (by simp [Pc.rank]) rfl
      · cases h
    | single =>
      simp only at h
      split at h
      · injection h with h; subst h; exact keep _ _ (by simp [Pc.rank]) rfl
      · injection h with h; subst h; exact keep _ _ (by simp [Pc.rank]) rfl
    | singleEnd =>
      simp only at h
      split at h
      · injection h with h; subst h; exact keep _ _ (by simp [Pc.rank]) rfl
      · cases h
    | copy =>
      simp only at h
      generalize hx : (do
        let sh ← putAll (putExt C.ne) s.sh (s.thr t).ext.items
        let sh ← putAll (putInt C.ne) sh (s.thr t).int.items
        Out.ok (({ s.thr t with pc := .done } : Thr α), sh)) = o at h
      cases o with
      | ub => cases h
      | fuel => cases h
      | ok y =>
        injection h with h; subst h
        rw [Out.bind_eq_ok] at hx
        obtain ⟨x, q1, hx⟩ := hx
        rw [Out.bind_eq_ok] at hx
        obtain ⟨x', q2, hx⟩ := hx
        injection hx with hx; rw [← hx]
        refine keep _ _ (by simp [Pc.rank]) ?_
        exact (putAll_quiet (fun _ _ _ h => putInt_quiet h) _ _ _ q2).trans (putAll_quiet (fun _ _ _ h => putExt_quiet h) _ _ _ q1)
    | done => cases h

/-- Every schedule of the simulation with leaks is, step for step, a schedule of the simulation without. -/
theorem reach_same {C : Cfg α} (hl : C.leak = true) {att0 : Nat → Nat → Out (Attempt α × Nat)} {asg : Nat → List Nat} {n : Nat} {s : St α}
    (h : Reach C asg n s)
    (H : ∀ t < C.T, ∀ x ∈ (s.thr t).hist, ∀ p q, C.att t p = .ok (x.2, q) → ∃ a0, att0 t p = .ok (a0, q) ∧ AttSame x.2 a0) :
    ∃ n0 s0, Reach (C.quiet att0) asg n0 s0 ∧ StSame s s0 := by
  induction h with
  | start =>
    refine ⟨0, _, .start, rfl, fun t => ⟨?_, rfl, rfl, rfl⟩⟩
    exact nextPc_same _
  | @step k s t s' h ht hstep ih =>
    obtain ⟨n0, s0, r0, hs⟩ := ih fun i hi x hx => H i hi x ((tstep_hist hstep i).subset hx)
    obtain ⟨s0', e, hs'⟩ := tstep_same hl hs hstep (H t ht)
    rcases e with e | e
    · exact ⟨n0 + 1, s0', .step r0 ht e, hs'⟩
    · subst e; exact ⟨n0, s0', r0, hs'⟩

theorem finished_same {C : Cfg α} {att0 : Nat → Nat → Out (Attempt α × Nat)} {s s0 : St α} (hs : StSame s s0) (hf : s.finished C) :
    s0.finished (C.quiet att0) := by
  intro t ht
  have h1 := hf t ht
  have h2 := (hs.thr t).pc
  rw [h1] at h2
  generalize (s0.thr t).pc = p at h2
  cases h2
  rfl

theorem results_same {C : Cfg α} {att0 : Nat → Nat → Out (Attempt α × Nat)} {s s0 : St α} (hs : StSame s s0) (es : List α) :
    results (C.quiet att0) es s0 = (results C es s).noLeaks := by
  unfold results
  rw [hs.sh]
  rfl

end generic

/-! ## The photons of a source -/

/-- the positive answer: what a photon of the source does with leaks, it does without -/
theorem attempt_same {lib : Xray ℝ} {S : Src ℝ} {D : Descr ℝ} (G : GoodSetup lib S D) {fuel k : Nat} {u : Nat → ℝ}
    (hu : ∀ i, 0 ≤ u i ∧ u i ≤ 1) {n : Nat} {a : Attempt ℝ} {m : Nat} (h : attempt lib S D true fuel k u n = .ok (a, m)) (hc : a.code ≠ -1) :
    ∃ a0, attempt lib S D false fuel (k + 1) u n = .ok (a0, m) ∧ AttSame a a0 := by
  obtain ⟨-, -, hes, hb, -⟩ := (scatf_accepts_iff D S.energies).mp G.comp
  obtain ⟨x, hx, hsrc, hl⟩ := attempt_ok h
  obtain ⟨h0, -, h1, -⟩ := source_photon_geometry S G.src D u hu fuel n x m hx
  have build : ∀ (w0 : WOut ℝ) (P0 : Photon ℝ), launch lib (some D) false fuel (k + 1) (some x.photon) (some S.energies) true = .ok (a.code, w0, some P0) →
      attempt lib S D false fuel (k + 1) u n = .ok (⟨a.code, x.src, P0, w0⟩, m) := by
    intro w0 P0 hq
    unfold attempt
    rw [hx, Out.bind_ok, hq, Out.bind_ok]
  by_cases hf : ∃ ws, a.wts = .filled ws
  · obtain ⟨ws, hw⟩ := hf
    rw [hw] at hl
    have := launch_leak_invisible_partial lib D fuel k fuel k x.photon S.energies hes hb (by rw [h1]; norm_num) _ _ _ hl hc
    exact ⟨_, build _ _ this, rfl, hsrc.symm, fun _ => hw.symm, fun _ => rfl, rfl⟩
  · have hw : ∀ ws, a.wts ≠ .filled ws := fun ws e => hf ⟨ws, e⟩
    obtain ⟨D', P'', es', e1, e2, e3, -, -, -, hlb⟩ := launch_valid lib (some D) true fuel k (some x.photon) (some S.energies) true (not_argsBad hes hb)
    injection e1 with e1; injection e2 with e2; injection e3 with e3; subst e1 e2 e3
    obtain ⟨D', P'', es', e1, e2, e3, -, -, -, hlb'⟩ := launch_valid lib (some D) false fuel (k + 1) (some x.photon) (some S.energies) true (not_argsBad hes hb)
    injection e1 with e1; injection e2 with e2; injection e3 with e3; subst e1 e2 e3
    rw [hlb, Out.bind_eq_ok] at hl
    obtain ⟨⟨c0, o0, P0⟩, hl, hl2⟩ := hl
    injection hl2 with hl2; injection hl2 with q1 hl2; injection hl2 with q2 hl2
    simp only at q1 q2
    rw [← q1] at hc
    have hw' : ∀ ws, o0 ≠ .filled ws := by rw [q2]; exact hw
    have hz : (launchInit lib D S.energies x.photon).startC.z = 0 := h0
    suffices ∃ P0', launchBody lib D false fuel (k + 1) x.photon S.energies = .ok (c0, .uninit, P0') ∧ c0 ≠ 1 by
      obtain ⟨P0', hB, hne⟩ := this
      refine ⟨_, build .uninit P0' (by rw [hlb', hB, Out.bind_ok, q1]), rfl, hsrc.symm, fun h => absurd (q1.trans h) hne, fun h => absurd (q1.trans h) hne, rfl⟩
    unfold launchBody at hl ⊢
    simp only at hl ⊢
    generalize launchCap D (launchInit lib D S.energies x.photon).startC = q at hl ⊢
    cases q with
    | none =>
      simp only at hl ⊢
      injection hl with hl; injection hl with r1 hl; injection hl with r2 r3
      rw [← r1]
      exact ⟨_, rfl, by decide⟩
    | some qr =>
      simp only at hl ⊢
      by_cases hsw : startsInWall D qr (launchInit lib D S.energies x.photon).startC = true
      · rw [if_pos hsw] at hl ⊢
        rw [if_pos (by rw [hz]; simp)] at hl
        rw [Out.bind_eq_ok] at hl
        obtain ⟨y, -, hl⟩ := hl
        injection hl with hl; injection hl with r1 hl; injection hl with r2 r3
        rw [← r1]
        simp only [Bool.false_and, Bool.false_eq_true, if_false]
        exact ⟨_, rfl, by decide⟩
      · rw [if_neg hsw] at hl
        exfalso
        obtain ⟨_, _, _, -, -, -, -, -, k4, -⟩ := launchInside_inv _ _ _ _ _ _ _ _ _ hl
        exact hw' _ k4

/-- a photon that is lost with leaks and without -/
theorem attempt_lost {lib : Xray ℝ} {S : Src ℝ} {D : Descr ℝ} (G : GoodSetup lib S D) {fuel k : Nat} {u : Nat → ℝ}
    (hu : ∀ i, 0 ≤ u i ∧ u i ≤ 1) {n : Nat} {a a0 : Attempt ℝ} {m m0 : Nat} (h : attempt lib S D true fuel k u n = .ok (a, m)) (hc : a.code = -1)
    (h0 : attempt lib S D false fuel (k + 1) u n = .ok (a0, m0)) (hc0 : a0.code = -1) : m0 = m ∧ AttSame a a0 := by
  obtain ⟨x, hx, hsrc, -⟩ := attempt_ok h
  obtain ⟨x0, hx0, hsrc0, -⟩ := attempt_ok h0
  rw [hx] at hx0
  injection hx0 with hx0; injection hx0 with e1 e2
  subst e1 e2
  have := (attempt_attOk G ⟨some (S, some D), false, 1, 1, false, false⟩ 1 (u := fun _ => u) (fun _ => hu) (t := 0) h0).alloc
  exact ⟨rfl, by rw [hc, hc0], by rw [hsrc, hsrc0], fun h => absurd (hc.symm.trans h) (by decide), fun h => absurd (hc.symm.trans h) (by decide), this⟩

/-- **C95**, for the threads of one simulation: if no photon of the run was lost (return value -1) that is not lost without leaks, then the
same source, random numbers, distribution of the photons and order of steps give, without leaks, a finished simulation with the same
results – efficiencies, counters, start images, exit images, exit weights. -/
theorem run_leak_invisible_partial (lib : Xray ℝ) (S : Src ℝ) (D : Descr ℝ) (G : GoodSetup lib S D) (a : SimArgs ℝ) (hl : a.leak = true) (omp : Int)
    (u : Nat → Nat → ℝ) (hu : ∀ t i, 0 ≤ u t i ∧ u t i ≤ 1) (fuel k : Nat) (asg : Nat → List Nat) (n : Nat) (s : St ℝ)
    (hr : Reach (simCfg lib S D a omp u fuel k) asg n s) (hf : s.finished (simCfg lib S D a omp u fuel k))
    (hlost : ∀ t < (threadsUsed a.maxThreads omp).toNat, ∀ x ∈ (s.thr t).hist, x.2.code = -1 →
      ∀ p q, attempt lib S D true fuel k (u t) p = .ok (x.2, q) → ∃ a0 q0, attempt lib S D false fuel (k + 1) (u t) p = .ok (a0, q0) ∧ a0.code = -1) :
    ∃ n0 s0, Reach (simCfg lib S D { a with leak := false } omp u fuel (k + 1)) asg n0 s0 ∧
      s0.finished (simCfg lib S D { a with leak := false } omp u fuel (k + 1)) ∧
      results (simCfg lib S D { a with leak := false } omp u fuel (k + 1)) S.energies s0 =
        (results (simCfg lib S D a omp u fuel k) S.energies s).noLeaks := by
  obtain ⟨n0, s0, r0, hs⟩ := reach_same (C := simCfg lib S D a omp u fuel k) hl (att0 := fun t n => attempt lib S D false fuel (k + 1) (u t) n) hr (by
    intro t ht x hx p q hatt
    have hatt' : attempt lib S D true fuel k (u t) p = .ok (x.2, q) := by
      have he : (simCfg lib S D a omp u fuel k).att t p = attempt lib S D a.leak fuel k (u t) p := rfl
      rw [he, hl] at hatt
      exact hatt
    by_cases hc : x.2.code = -1
    · obtain ⟨a0, q0, h0, c0⟩ := hlost t ht x hx hc p q hatt'
      obtain ⟨e, hsame⟩ := attempt_lost G (hu t) hatt' hc h0 c0
      exact ⟨a0, by rw [h0, e], hsame⟩
    · exact attempt_same G (hu t) hatt' hc)
  have hq : simCfg lib S D { a with leak := false } omp u fuel (k + 1) =
    (simCfg lib S D a omp u fuel k).quiet (fun t n => attempt lib S D false fuel (k + 1) (u t) n) := rfl
  rw [hq]
  exact ⟨n0, s0, r0, finished_same hs hf, results_same hs _⟩

/-- A photon of the source that comes through without leaks or with another return value, and is lost when leaks are calculated. -/
def LeaksLose (lib : Xray ℝ) (S : Src ℝ) (D : Descr ℝ) : Prop :=
  ∃ (u : Nat → ℝ) (fuel k p q : Nat) (a : Attempt ℝ), (∀ i, 0 ≤ u i ∧ u i ≤ 1) ∧ attempt lib S D true fuel k u p = .ok (a, q) ∧ a.code = -1 ∧
    ¬ ∃ a0 q0, attempt lib S D false fuel (k + 1) u p = .ok (a0, q0) ∧ a0.code = -1

/-- **C95.**  If a call with leaks returns results `r` then the same call without leaks can return `r` without the leaks – provided
that no photon of the source is lost because of the leaks. -/
theorem simulation_leak_invisible_partial (lib : Xray ℝ) (S : Src ℝ) (D : Descr ℝ) (G : GoodSetup lib S D) (a : SimArgs ℝ) (hs : a.source = some (S, some D))
    (hl : a.leak = true) (hn : ¬ LeaksLose lib S D) (omp : Int) (e e' : EArg) (r : TE ℝ) (h : SimOutcome lib a omp e (some r) e') :
    SimOutcome lib { a with leak := false } omp e (some r.noLeaks) e' := by
  cases h with
  | ran hrej S' D' hs' u hu fuel k asg hd n s hr hf =>
    rw [hs] at hs'
    injection hs' with hs'; injection hs' with e1 e2; injection e2 with e2
    subst e1 e2
    obtain ⟨n0, s0, r0, f0, e0⟩ := run_leak_invisible_partial lib S D G a hl omp u (real_unit hu) fuel k asg n s hr hf (by
      intro t ht x hx hc p q hatt
      by_contra hno
      exact hn ⟨u t, fuel, k, p, q, x.2, real_unit hu t, hatt, hc, hno⟩)
    rw [← e0]
    exact .ran (a := { a with leak := false }) (by rw [← hrej]; rfl) S D hs u hu fuel (k + 1) asg hd n0 s0 r0 f0

end Polycap
