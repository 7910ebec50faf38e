import Verif.Props.SimShared
import Mathlib.Data.List.Perm.Basic
import Mathlib.Algebra.BigOperators.Group.List.Lemmas
import Mathlib.Algebra.Order.BigOperators.Group.List
import Mathlib.Tactic.Positivity
import Mathlib.Tactic.FieldSimp
import Mathlib.Tactic.Linarith

/-!
# The parallel simulation: what is reported (C32, C33, C34, C35, C36)
-/
namespace Polycap
open CNum

section generic
variable {α : Type} [CNum α]

/-- `r` reports the photons `H` (slot and photon, in any order). -/
structure Reports (C : Cfg α) (H : List (Nat × Attempt α)) (r : TE α) : Prop where
  /-- every slot holds the record of the one photon of that slot that left through the exit window -/
  slot : ∀ j < C.n, ∃ a, (j, a) ∈ H ∧ simCode C.D a = 1 ∧ (∀ b, (j, b) ∈ H → simCode C.D b = 1 → b = a) ∧
    r.start j = some (startRec a) ∧ r.exit j = some (exitRec C.D.prof a.ph) ∧
    (wtsOf C.ne a).length = C.ne ∧ ∀ l < C.ne, r.exitW (j * C.ne + l) = (wtsOf C.ne a)[l]?
  /-- no photon left the optic without being recorded -/
  slots : ((exitsOf C.D H).map Prod.fst).Perm (List.range C.n)
  iExit : r.iExit = C.n
  iStart : r.iStart = C.n + H.countP (fun x => decide (x.2.code = 2)) + H.countP (fun x => decide (x.2.code = 0))
  openArea : r.openArea = ofInt (C.n + H.countP (fun x => decide (x.2.code = 0)) : Nat) /. ofInt (r.iStart : Nat)
  ext : ∃ ls, ls.Perm (if C.leak then extOf C.D C.ne H else []) ∧ Written C.ne r.iExt r.extL r.extW extRec ls
  int : ∃ ls, ls.Perm (if C.leak then intOf C.D C.ne H else []) ∧ Written C.ne r.iInt r.intL r.intW intRec ls

theorem sumTo_eq (f : Nat → Nat) (n : Nat) : sumTo f n = ((List.range n).map f).sum := by
  induction n with
  | zero => rfl
  | succ n ih => rw [sumTo, ih, List.range_succ]; simp

/-- all photons of all threads -/
def allHist (C : Cfg α) (H : Nat → List (Nat × Attempt α)) : List (Nat × Attempt α) := (List.range C.T).flatMap H

theorem exitsOf_all (C : Cfg α) (H : Nat → List (Nat × Attempt α)) :
    exitsOf C.D (allHist C H) = (List.range C.T).flatMap (fun t => exitsOf C.D (H t)) := by
  unfold exitsOf allHist
  rw [List.filter_flatMap]

theorem extOf_all (C : Cfg α) (H : Nat → List (Nat × Attempt α)) :
    extOf C.D C.ne (allHist C H) = (List.range C.T).flatMap (fun t => extOf C.D C.ne (H t)) := by
  unfold extOf allHist
  rw [List.flatMap_assoc]
theorem intOf_all (C : Cfg α) (H : Nat → List (Nat × Attempt α)) :
    intOf C.D C.ne (allHist C H) = (List.range C.T).flatMap (fun t => intOf C.D C.ne (H t)) := by
  unfold intOf allHist
  rw [List.flatMap_assoc]

omit [CNum α] in
theorem perm_range {T : Nat} {ord : List Nat} (hn : ord.Nodup) (hm : ∀ t, t ∈ ord ↔ t < T) : ord.Perm (List.range T) :=
  (List.perm_ext_iff_of_nodup hn List.nodup_range).2 (fun t => by rw [hm, List.mem_range])

/-- The state after the parallel region, as a function of what every thread went through. -/
structure Final (C : Cfg α) (asg : Nat → List Nat) (s : St α) : Prop where
  runs : ∀ t < C.T, ∃ p, ThreadRun C.D (C.att t) (asg t) 0 (s.thr t).hist p
  ord : ∃ ord : List Nat, ord.Perm (List.range C.T) ∧ s.sh.sumW = (ord.map (fun t => (s.thr t).weights)).foldl addW (List.replicate C.ne (lit 0))
  wts : ∀ t < C.T, (s.thr t).weights =
    (exitsOf C.D (s.thr t).hist).foldl (fun w x => addW w (wtsOf C.ne x.2)) (List.replicate C.ne (lit 0))
  long : ∀ t < C.T, ∀ x ∈ exitsOf C.D (s.thr t).hist, (wtsOf C.ne x.2).length = C.ne

theorem final_of_finished {C : Cfg α} {asg : Nat → List Nat} {k : Nat} {s : St α} (hr : Reach C asg k s) (hf : s.finished C) :
    Final C asg s := by
  have L := fun t => local_inv hr t
  have G := global_inv hr
  have hrec : ∀ t < C.T, recorded C.D (s.thr t) = exitsOf C.D (s.thr t).hist := fun t ht =>
    recorded_of_not_save (by rw [hf t ht]; rfl)
  have hrk : ∀ t < C.T, rk s t = 7 := fun t ht => by simp [rk, hf t ht, Pc.rank]
  constructor
  · intro t ht
    refine ⟨(s.thr t).pos, ?_⟩
    have := (L t).cont [] (s.thr t).pos (by rw [hf t ht]; exact ⟨rfl, rfl⟩)
    simpa using this
  · obtain ⟨ord, S⟩ := G.sum
    exact ⟨ord, perm_range S.nodup (fun t => by
      rw [S.mem]; exact ⟨fun h => h.1, fun h => ⟨h, by rw [hrk t h]; omega⟩⟩), S.sumW⟩
  · intro t ht; rw [(L t).wts, hrec t ht]
  · intro t ht x hx; exact (L t).long x (by rw [hrec t ht]; exact hx)

theorem foldl_addW_length {n : Nat} : ∀ (ls : List (List α)) (z : List α), z.length = n → (∀ l ∈ ls, l.length = n) → (ls.foldl addW z).length = n
  | [], _, hz, _ => hz
  | l :: ls, z, hz, h => foldl_addW_length ls (addW z l) (by simp [addW, hz, h l (by simp)]) (fun m hm => h m (by simp [hm]))

/-- there is one efficiency per energy -/
theorem effs_length {C : Cfg α} {asg : Nat → List Nat} {k : Nat} {s : St α} (hr : Reach C asg k s) (hf : s.finished C) (es : List α) :
    (results C es s).effs.length = C.ne := by
  have F := final_of_finished hr hf
  obtain ⟨ord, p, h⟩ := F.ord
  simp only [results, List.length_map]
  rw [h]
  refine foldl_addW_length _ _ (by simp) (fun l hl => ?_)
  obtain ⟨t, ht, rfl⟩ := List.mem_map.1 hl
  have ht := List.mem_range.1 (p.mem_iff.1 ht)
  rw [F.wts t ht, ← List.foldl_map (f := fun x : Nat × Attempt α => wtsOf C.ne x.2) (g := addW)]
  refine foldl_addW_length _ _ (by simp) (fun l hl => ?_)
  obtain ⟨x, hx, rfl⟩ := List.mem_map.1 hl
  exact F.long t ht x hx

/-- **C32, C35, C36.**  Whatever the number of threads, the distribution of the slots, the random streams and the interleaving: a
completed simulation reports exactly the photons its threads went through. -/
theorem simulation_reports {C : Cfg α} {asg : Nat → List Nat} (hd : Distributes C asg) {k : Nat} {s : St α} (hr : Reach C asg k s)
    (hf : s.finished C) (es : List α) : Reports C (allHist C (fun t => (s.thr t).hist)) (results C es s) := by
  have L := fun t => local_inv hr t
  have G := global_inv hr
  have SI := slot_inv hd hr
  have hrec : ∀ t < C.T, recorded C.D (s.thr t) = exitsOf C.D (s.thr t).hist := fun t ht =>
    recorded_of_not_save (by rw [hf t ht]; rfl)
  have hrk : ∀ t < C.T, rk s t = 7 := fun t ht => by simp [rk, hf t ht, Pc.rank]
  have hsl : ∀ t < C.T, (exitsOf C.D (s.thr t).hist).map Prod.fst = asg t := fun t ht => by
    have := (L t).slots
    rw [hf t ht] at this
    simpa [pending] using this
  have hslots : ((exitsOf C.D (allHist C (fun t => (s.thr t).hist))).map Prod.fst).Perm (List.range C.n) := by
    rw [exitsOf_all, List.map_flatMap,
      List.flatMap_congr (g := asg) (fun t ht => hsl t (List.mem_range.1 ht))]
    exact hd
  have hie : sumTo s.sh.iexit C.T = C.n := by
    rw [sumTo_eq, List.map_congr_left (g := fun t => (exitsOf C.D (s.thr t).hist).length) (fun t _ => (L t).ie)]
    have := hslots.length_eq
    rw [List.length_map, List.length_range, exitsOf_all, List.length_flatMap] at this
    exact this
  have hne : sumTo s.sh.notEntered C.T = (allHist C (fun t => (s.thr t).hist)).countP (fun x => decide (x.2.code = 2)) := by
    rw [sumTo_eq, List.map_congr_left (fun t _ => (L t).ne), allHist, List.countP_flatMap]; rfl
  have hnt : sumTo s.sh.notTransmitted C.T = (allHist C (fun t => (s.thr t).hist)).countP (fun x => decide (x.2.code = 0)) := by
    rw [sumTo_eq, List.map_congr_left (fun t _ => (L t).nt), allHist, List.countP_flatMap]; rfl
  have hdone : ∀ t < C.T, (s.thr t).pc.isWork = false := fun t ht => by rw [hf t ht]; rfl
  have hsum : ∃ ord : List Nat, ord.Perm (List.range C.T) ∧ Summed C s ord := by
    obtain ⟨ord, S⟩ := G.sum
    exact ⟨ord, perm_range S.nodup (fun t => by
      rw [S.mem]; exact ⟨fun h => h.1, fun h => ⟨h, by rw [hrk t h]; omega⟩⟩), S⟩
  have lenE : C.leak = true → s.sh.iExt = ((List.range C.T).flatMap (fun t => (s.thr t).ext.items)).length := fun hl => by
    obtain ⟨ord, p, S⟩ := hsum
    rw [S.iExt, if_pos hl, List.length_flatMap]
    exact (p.map _).sum_eq
  have lenI : C.leak = true → s.sh.iInt = ((List.range C.T).flatMap (fun t => (s.thr t).int.items)).length := fun hl => by
    obtain ⟨ord, p, S⟩ := hsum
    rw [S.iInt, if_pos hl, List.length_flatMap]
    exact (p.map _).sum_eq
  have permE : C.leak = true → ((List.range C.T).flatMap (fun t => (s.thr t).ext.items)).Perm
      (extOf C.D C.ne (allHist C (fun t => (s.thr t).hist))) := fun hl => by
    rw [extOf_all]
    refine List.Perm.flatMap_left _ (fun t ht => ?_)
    have ht := List.mem_range.1 ht
    have := (L t).leakE hl
    rw [hf t ht, ((L t).flush hl (hdone t ht)).1] at this
    simpa [heldE] using this
  have permI : C.leak = true → ((List.range C.T).flatMap (fun t => (s.thr t).int.items)).Perm
      (intOf C.D C.ne (allHist C (fun t => (s.thr t).hist))) := fun hl => by
    rw [intOf_all]
    refine List.Perm.flatMap_left _ (fun t ht => ?_)
    have ht := List.mem_range.1 ht
    have := (L t).leakI hl
    rw [hf t ht, ((L t).flush hl (hdone t ht)).2] at this
    simpa [heldI] using this
  constructor
  · intro j hj
    have hjm : j ∈ (exitsOf C.D (allHist C (fun t => (s.thr t).hist))).map Prod.fst := hslots.mem_iff.2 (List.mem_range.2 hj)
    obtain ⟨⟨j', a⟩, hx, rfl⟩ := List.mem_map.1 hjm
    have hnd : ((exitsOf C.D (allHist C (fun t => (s.thr t).hist))).map Prod.fst).Nodup := hslots.nodup_iff.2 List.nodup_range
    have hx0 := hx
    rw [exitsOf_all] at hx
    obtain ⟨t, ht, hxt⟩ := List.mem_flatMap.1 hx
    have ht := List.mem_range.1 ht
    obtain ⟨e1, e2, e3⟩ := SI.exit t ht (j', a) (by rw [hrec t ht]; exact hxt)
    have hmem : (j', a) ∈ allHist C (fun t => (s.thr t).hist) := (List.mem_filter.1 hx0).1
    have hcode : simCode C.D a = 1 := by simpa using (List.mem_filter.1 hx0).2
    refine ⟨a, hmem, hcode, ?_, SI.start t ht _ hxt, e1, (L t).long (j', a) (by rw [hrec t ht]; exact hxt), e3⟩
    intro b hb hcb
    have hbx : (j', b) ∈ exitsOf C.D (allHist C (fun t => (s.thr t).hist)) := List.mem_filter.2 ⟨hb, by simpa using hcb⟩
    have := List.inj_on_of_nodup_map hnd hbx hx0 rfl
    exact (Prod.mk.inj this).2
  · exact hslots
  · exact hie
  · simp only [results, hie, hne, hnt]
  · simp only [results, hie, hne, hnt]
  · by_cases hl : C.leak = true
    · rw [if_pos hl]
      obtain ⟨ord, S⟩ := G.cp
      have p : ord.Perm (List.range C.T) := perm_range S.nodup (fun t => by
        rw [S.mem]; exact ⟨fun h => h.1, fun h => ⟨h, hrk t h, hl⟩⟩)
      refine ⟨ord.flatMap (fun t => (s.thr t).ext.items), (p.flatMap_right _).trans (permE hl), ?_⟩
      have hN : (results C es s).iExt = s.sh.extN := by
        show s.sh.iExt = _
        rw [lenE hl, S.ext.len]
        exact (p.flatMap_right _).length_eq.symm
      rw [hN]
      exact S.ext
    · rw [if_neg hl]
      obtain ⟨ord, S⟩ := G.cp
      have h0 : ord = [] := List.eq_nil_iff_forall_not_mem.2 (fun t ht => hl ((S.mem t).1 ht).2.2)
      subst h0
      refine ⟨[], List.Perm.refl _, ?_⟩
      obtain ⟨o2, _, S2⟩ := hsum
      have hN : (results C es s).iExt = s.sh.extN := by
        show s.sh.iExt = _
        rw [S2.iExt, if_neg hl, S.ext.len]; rfl
      rw [hN]; exact S.ext
  · by_cases hl : C.leak = true
    · rw [if_pos hl]
      obtain ⟨ord, S⟩ := G.cp
      have p : ord.Perm (List.range C.T) := perm_range S.nodup (fun t => by
        rw [S.mem]; exact ⟨fun h => h.1, fun h => ⟨h, hrk t h, hl⟩⟩)
      refine ⟨ord.flatMap (fun t => (s.thr t).int.items), (p.flatMap_right _).trans (permI hl), ?_⟩
      have hN : (results C es s).iInt = s.sh.intN := by
        show s.sh.iInt = _
        rw [lenI hl, S.int.len]
        exact (p.flatMap_right _).length_eq.symm
      rw [hN]
      exact S.int
    · rw [if_neg hl]
      obtain ⟨ord, S⟩ := G.cp
      have h0 : ord = [] := List.eq_nil_iff_forall_not_mem.2 (fun t ht => hl ((S.mem t).1 ht).2.2)
      subst h0
      refine ⟨[], List.Perm.refl _, ?_⟩
      obtain ⟨o2, _, S2⟩ := hsum
      have hN : (results C es s).iInt = s.sh.intN := by
        show s.sh.iInt = _
        rw [S2.iInt, if_neg hl, S.int.len]; rfl
      rw [hN]; exact S.int

/-- **C32**: each slot of the exit arrays is written exactly once. -/
theorem slots_written_once {C : Cfg α} {asg : Nat → List Nat} (hd : Distributes C asg) {k : Nat} {s : St α} (hr : Reach C asg k s)
    (hf : s.finished C) : (∀ j < C.n, s.sh.writes j = 1) ∧ ∀ j, C.n ≤ j → s.sh.writes j = 0 := by
  have L := fun t => local_inv hr t
  have SI := slot_inv hd hr
  have hrec : ∀ t < C.T, recorded C.D (s.thr t) = exitsOf C.D (s.thr t).hist := fun t ht =>
    recorded_of_not_save (by rw [hf t ht]; rfl)
  have hsl : ∀ t < C.T, (exitsOf C.D (s.thr t).hist).map Prod.fst = asg t := fun t ht => by
    have := (L t).slots
    rw [hf t ht] at this
    simpa [pending] using this
  constructor
  · intro j hj
    have : j ∈ (List.range C.T).flatMap asg := hd.mem_iff.2 (List.mem_range.2 hj)
    obtain ⟨t, ht, hjt⟩ := List.mem_flatMap.1 this
    have ht := List.mem_range.1 ht
    rw [← hsl t ht] at hjt
    obtain ⟨x, hx, rfl⟩ := List.mem_map.1 hjt
    exact (SI.exit t ht x (by rw [hrec t ht]; exact hx)).2.1
  · intro j hj
    refine SI.fresh j (fun t ht hm => ?_)
    rw [hrec t ht, hsl t ht] at hm
    have := asg_lt hd ht hm
    omega

/-- **C34**: for a given distribution of slots and given random streams the photons simulated do not depend on the interleaving. -/
theorem schedule_irrelevant {C : Cfg α} {asg : Nat → List Nat} {k k' : Nat} {s s' : St α} (hr : Reach C asg k s)
    (hr' : Reach C asg k' s') (hf : s.finished C) (hf' : s'.finished C) :
    allHist C (fun t => (s.thr t).hist) = allHist C (fun t => (s'.thr t).hist) := by
  unfold allHist
  refine List.flatMap_congr (fun t ht => ?_)
  have ht := List.mem_range.1 ht
  obtain ⟨p, h⟩ := (final_of_finished hr hf).runs t ht
  obtain ⟨p', h'⟩ := (final_of_finished hr' hf').runs t ht
  exact (h.det h').1

/-- **C34**: two reports of the same photons, however they were distributed over threads: equal counters, open area and records, and the
same leak events up to order. -/
theorem reports_agree {C C' : Cfg α} (hn : C'.n = C.n) (hne : C'.ne = C.ne) (hl : C'.leak = C.leak) (hD : C'.D = C.D)
    {H H' : List (Nat × Attempt α)} (hp : H.Perm H') {r r' : TE α} (R : Reports C H r) (R' : Reports C' H' r') :
    r'.iExit = r.iExit ∧ r'.iStart = r.iStart ∧ r'.openArea = r.openArea ∧ r'.iExt = r.iExt ∧ r'.iInt = r.iInt ∧
      (∀ j < C.n, r'.start j = r.start j ∧ r'.exit j = r.exit j ∧
        ∀ l < C.ne, r'.exitW (j * C.ne + l) = r.exitW (j * C.ne + l)) ∧
      (∃ ls ls' : List (Leak α), ls.Perm ls' ∧ Written C.ne r.iExt r.extL r.extW extRec ls ∧
        Written C.ne r'.iExt r'.extL r'.extW extRec ls') ∧
      (∃ ls ls' : List (Leak α), ls.Perm ls' ∧ Written C.ne r.iInt r.intL r.intW intRec ls ∧
        Written C.ne r'.iInt r'.intL r'.intW intRec ls') := by
  have hs : r'.iStart = r.iStart := by
    rw [R.iStart, R'.iStart, hn, hp.countP_eq, hp.countP_eq]
  obtain ⟨le, pe, we⟩ := R.ext
  obtain ⟨le', pe', we'⟩ := R'.ext
  obtain ⟨li, pi, wi⟩ := R.int
  obtain ⟨li', pi', wi'⟩ := R'.int
  rw [hne] at we' wi'
  have he : le.Perm le' := by
    refine pe.trans (List.Perm.trans ?_ pe'.symm)
    rw [hl, hD, hne]
    split_ifs
    · exact hp.flatMap_right _
    · exact List.Perm.refl _
  have hi : li.Perm li' := by
    refine pi.trans (List.Perm.trans ?_ pi'.symm)
    rw [hl, hD, hne]
    split_ifs
    · exact hp.flatMap_right _
    · exact List.Perm.refl _
  refine ⟨by rw [R.iExit, R'.iExit, hn], hs, by rw [R.openArea, R'.openArea, hn, hs, hp.countP_eq],
    by rw [we.len, we'.len, he.length_eq], by rw [wi.len, wi'.len, hi.length_eq], ?_, ⟨le, le', he, we, we'⟩, ⟨li, li', hi, wi, wi'⟩⟩
  intro j hj
  obtain ⟨a, a1, a2, a3, a4, a5, a6, a7⟩ := R.slot j hj
  obtain ⟨b, b1, b2, b3, b4, b5, b6, b7⟩ := R'.slot j (by rw [hn]; exact hj)
  rw [hD] at b2
  obtain rfl := a3 b (hp.mem_iff.2 b1) b2
  rw [hne] at b7
  rw [hD] at b5
  exact ⟨b4.trans a4.symm, b5.trans a5.symm, fun l hl => (b7 l hl).trans (a7 l hl).symm⟩

/-- every photon of a history comes from the generator and the tracer -/
theorem SlotRun.mem {D : Descr α} {g : Nat → Out (Attempt α × Nat)} {p l p'} (h : SlotRun D g p l p') :
    ∀ a ∈ l, ∃ q q', g q = .ok (a, q') := by
  induction h with
  | last h _ => intro b hb; simp only [List.mem_singleton] at hb; subst hb; exact ⟨_, _, h⟩
  | retry h _ _ ih =>
    intro b hb
    rcases List.mem_cons.1 hb with rfl | hb
    · exact ⟨_, _, h⟩
    · exact ih b hb

theorem ThreadRun.mem {D : Descr α} {g : Nat → Out (Attempt α × Nat)} {js p l p'} (h : ThreadRun D g js p l p') :
    ∀ x ∈ l, x.1 ∈ js ∧ ∃ q q', g q = .ok (x.2, q') := by
  induction h with
  | nil p => intro x hx; simp at hx
  | @cons j js p l p1 h p2 hs hr ih =>
    intro x hx
    rcases List.mem_append.1 hx with hx | hx
    · obtain ⟨a, ha, rfl⟩ := List.mem_map.1 hx
      exact ⟨by simp, hs.mem a ha⟩
    · exact ⟨List.mem_cons_of_mem _ (ih x hx).1, (ih x hx).2⟩

theorem allHist_mem {C : Cfg α} {asg : Nat → List Nat} {k : Nat} {s : St α} (hr : Reach C asg k s) (hf : s.finished C) :
    ∀ x ∈ allHist C (fun t => (s.thr t).hist), ∃ t < C.T, ∃ q q', C.att t q = .ok (x.2, q') := by
  intro x hx
  obtain ⟨t, ht, hxt⟩ := List.mem_flatMap.1 hx
  have ht := List.mem_range.1 ht
  obtain ⟨p, h⟩ := (final_of_finished hr hf).runs t ht
  exact ⟨t, ht, (h.mem x hxt).2⟩

end generic

/-! ## Efficiencies (exact reals) -/

theorem addW_length (a b : List ℝ) (n : Nat) (ha : a.length = n) (hb : b.length = n) : (addW a b).length = n := by
  simp [addW, ha, hb]

theorem addW_getD (a b : List ℝ) (n : Nat) (ha : a.length = n) (hb : b.length = n) (k : Nat) (hk : k < n) :
    (addW a b).getD k 0 = a.getD k 0 + b.getD k 0 := by
  simp [addW, List.getD_eq_getElem?_getD, List.getElem?_zipWith, List.getElem?_eq_getElem, ha, hb, hk]

theorem foldl_addW {n : Nat} : ∀ (ls : List (List ℝ)) (z : List ℝ), z.length = n → (∀ l ∈ ls, l.length = n) →
    (ls.foldl addW z).length = n ∧ ∀ k < n, (ls.foldl addW z).getD k 0 = z.getD k 0 + (ls.map (fun l => l.getD k 0)).sum
  | [], z, hz, _ => ⟨hz, fun k _ => by simp⟩
  | l :: ls, z, hz, h => by
    have hl := h l (by simp)
    obtain ⟨i1, i2⟩ := foldl_addW ls (addW z l) (addW_length z l n hz hl) (fun m hm => h m (by simp [hm]))
    refine ⟨i1, fun k hk => ?_⟩
    rw [List.foldl_cons, i2 k hk, addW_getD z l n hz hl k hk]
    simp [add_assoc]

theorem sum_flatMap_real {β : Type} (l : List β) (f : β → List ℝ) :
    (l.flatMap f).sum = (l.map (fun a => (f a).sum)).sum := by
  induction l with
  | nil => simp
  | cons a l ih => simp [List.flatMap_cons, ih]

/-- The sum of the weights over all exits. -/
theorem sumW_total {C : Cfg ℝ} {asg : Nat → List Nat} {s : St ℝ} (F : Final C asg s) :
    s.sh.sumW.length = C.ne ∧ ∀ k < C.ne, s.sh.sumW.getD k 0 =
      ((exitsOf C.D (allHist C (fun t => (s.thr t).hist))).map (fun x => (wtsOf C.ne x.2).getD k 0)).sum := by
  obtain ⟨ord, hp, hs⟩ := F.ord
  have hT : ∀ t < C.T, (s.thr t).weights.length = C.ne ∧ ∀ k < C.ne, (s.thr t).weights.getD k 0 =
      ((exitsOf C.D (s.thr t).hist).map (fun x => (wtsOf C.ne x.2).getD k 0)).sum := by
    intro t ht
    have := foldl_addW (n := C.ne) ((exitsOf C.D (s.thr t).hist).map (fun x => wtsOf C.ne x.2)) (List.replicate C.ne (lit 0 : ℝ))
      (by simp) (by
        intro l hl
        obtain ⟨x, hx, rfl⟩ := List.mem_map.1 hl
        exact F.long t ht x hx)
    rw [List.foldl_map, ← F.wts t ht] at this
    refine ⟨this.1, fun k hk => ?_⟩
    rw [this.2 k hk]
    simp [List.getD_eq_getElem?_getD, hk, List.map_map, Function.comp_def]
  have hlen : ∀ l ∈ ord.map (fun t => (s.thr t).weights), l.length = C.ne := by
    intro l hl
    obtain ⟨t, ht, rfl⟩ := List.mem_map.1 hl
    exact (hT t (List.mem_range.1 (hp.mem_iff.1 ht))).1
  have := foldl_addW (n := C.ne) (ord.map (fun t => (s.thr t).weights)) (List.replicate C.ne (lit 0 : ℝ)) (by simp) hlen
  rw [← hs] at this
  refine ⟨this.1, fun k hk => ?_⟩
  rw [this.2 k hk, exitsOf_all, List.map_flatMap, sum_flatMap_real, List.map_map, Function.comp_def]
  rw [((hp.map _).sum_eq), List.map_congr_left (g := fun t => ((exitsOf C.D (s.thr t).hist).map (fun x => (wtsOf C.ne x.2).getD k 0)).sum)
    (fun t ht => (hT t (List.mem_range.1 ht)).2 k hk)]
  simp [List.getD_eq_getElem?_getD, hk]

/-- **C33**: an efficiency is the sum of the exit weights at that energy divided by the number of started photons. -/
theorem efficiencies_formula {C : Cfg ℝ} {asg : Nat → List Nat} (hd : Distributes C asg) (hn : 1 ≤ C.n) {k : Nat} {s : St ℝ}
    (hr : Reach C asg k s) (hf : s.finished C) (es : List ℝ) :
    (results C es s).effs.length = C.ne ∧ ∀ i < C.ne, (results C es s).effs.getD i 0 =
      ((List.range C.n).map (fun j => ((results C es s).exitW (j * C.ne + i)).getD 0)).sum / (results C es s).iStart := by
  have F := final_of_finished hr hf
  have R := simulation_reports hd hr hf es
  obtain ⟨hl, hw⟩ := sumW_total F
  refine ⟨by simp [results, hl], fun i hi => ?_⟩
  have hsum : s.sh.sumW.getD i 0 = ((List.range C.n).map (fun j => ((results C es s).exitW (j * C.ne + i)).getD 0)).sum := by
    rw [hw i hi, ← (R.slots.map (fun j => ((results C es s).exitW (j * C.ne + i)).getD 0)).sum_eq, List.map_map]
    congr 1
    refine List.map_congr_left (fun x hx => ?_)
    have hx1 : x.1 < C.n := List.mem_range.1 (R.slots.mem_iff.1 (List.mem_map.2 ⟨x, hx, rfl⟩))
    obtain ⟨a, a1, a2, a3, a4, a5, a6, a7⟩ := R.slot x.1 hx1
    have hxa : x.2 = a := a3 x.2 (List.mem_filter.1 hx).1 (by simpa using (List.mem_filter.1 hx).2)
    simp only [Function.comp_apply]
    rw [a7 i hi, hxa, List.getD_eq_getElem?_getD]
  rw [← hsum]
  have hie : (results C es s).iExit = C.n := R.iExit
  have hie' : sumTo s.sh.iexit C.T = C.n := hie
  have hst : ((results C es s).iStart : ℝ) = sumTo s.sh.iexit C.T + sumTo s.sh.notEntered C.T + sumTo s.sh.notTransmitted C.T := by
    simp [results]
  rw [hst]
  simp only [results, List.getD_eq_getElem?_getD, List.getElem?_map, hl, hi, List.getElem?_eq_getElem, Option.map_some, Option.getD_some,
    real_div, real_mul, real_add, real_ofInt]
  have h1 : (1 : ℝ) ≤ (sumTo s.sh.iexit C.T : ℝ) := by rw [hie']; exact_mod_cast hn
  have h2 : (0 : ℝ) ≤ (sumTo s.sh.notTransmitted C.T : ℝ) := by positivity
  have h3 : (0 : ℝ) ≤ (sumTo s.sh.notEntered C.T : ℝ) := by positivity
  push_cast
  have ha : (sumTo s.sh.iexit C.T : ℝ) + sumTo s.sh.notTransmitted C.T ≠ 0 := by linarith
  have hb : (sumTo s.sh.iexit C.T : ℝ) + sumTo s.sh.notEntered C.T + sumTo s.sh.notTransmitted C.T ≠ 0 := by linarith
  field_simp

/-- **C33**: if photon weights are probabilities, so are efficiencies, and they do not exceed the simulated open area. -/
theorem efficiencies_bounds {C : Cfg ℝ} {asg : Nat → List Nat} (hd : Distributes C asg) (hn : 1 ≤ C.n) {k : Nat} {s : St ℝ}
    (hr : Reach C asg k s) (hf : s.finished C) (es : List ℝ)
    (hw : ∀ t < C.T, ∀ q a q', C.att t q = .ok (a, q') → ∀ w ∈ wtsOf C.ne a, 0 ≤ w ∧ w ≤ 1) :
    (∀ e ∈ (results C es s).effs, 0 ≤ e ∧ e ≤ (results C es s).openArea) ∧
      0 < (results C es s).openArea ∧ (results C es s).openArea ≤ 1 := by
  have R := simulation_reports hd hr hf es
  obtain ⟨hl, hform⟩ := efficiencies_formula hd hn hr hf es
  have hex : ∀ j < C.n, ∀ i < C.ne, 0 ≤ ((results C es s).exitW (j * C.ne + i)).getD 0 ∧ ((results C es s).exitW (j * C.ne + i)).getD 0 ≤ 1 := by
    intro j hj i hi
    obtain ⟨a, a1, a2, a3, a4, a5, a6, a7⟩ := R.slot j hj
    obtain ⟨t, ht, q, q', hq⟩ := allHist_mem hr hf (j, a) a1
    rw [a7 i hi, List.getElem?_eq_getElem (by omega)]
    exact hw t ht q a q' hq _ (List.getElem_mem _)
  have hiS : (results C es s).iStart = C.n + _ + _ := R.iStart
  set N := (results C es s).iStart
  set c2 := (allHist C (fun t => (s.thr t).hist)).countP (fun x => decide (x.2.code = 2))
  set c0 := (allHist C (fun t => (s.thr t).hist)).countP (fun x => decide (x.2.code = 0))
  have hN : (N : ℝ) = C.n + c2 + c0 := by rw [hiS]; push_cast; ring
  have hn' : (1 : ℝ) ≤ C.n := by exact_mod_cast hn
  have h0 : (0 : ℝ) ≤ c0 := by positivity
  have h2 : (0 : ℝ) ≤ c2 := by positivity
  have hNp : (0 : ℝ) < N := by rw [hN]; linarith
  have hoa : (results C es s).openArea = ((C.n : ℝ) + c0) / N := by
    rw [R.openArea]; simp only [real_div, real_ofInt]; push_cast; rfl
  refine ⟨?_, by rw [hoa]; positivity, by rw [hoa, div_le_one hNp, hN]; linarith⟩
  intro e he
  obtain ⟨i, hi, rfl⟩ := List.mem_iff_getElem.1 he
  have hi' : i < C.ne := by rw [← hl]; exact hi
  have hf' := hform i hi'
  rw [List.getD_eq_getElem?_getD, List.getElem?_eq_getElem hi, Option.getD_some] at hf'
  rw [hf', hoa]
  have s0 : 0 ≤ ((List.range C.n).map (fun j => ((results C es s).exitW (j * C.ne + i)).getD 0)).sum := by
    apply List.sum_nonneg
    intro x hx
    obtain ⟨j, hj, rfl⟩ := List.mem_map.1 hx
    exact (hex j (List.mem_range.1 hj) i hi').1
  have s1 : ((List.range C.n).map (fun j => ((results C es s).exitW (j * C.ne + i)).getD 0)).sum ≤ C.n := by
    have := List.sum_le_card_nsmul ((List.range C.n).map (fun j => ((results C es s).exitW (j * C.ne + i)).getD 0)) 1 (by
      intro x hx
      obtain ⟨j, hj, rfl⟩ := List.mem_map.1 hx
      exact (hex j (List.mem_range.1 hj) i hi').2)
    simpa using this
  exact ⟨div_nonneg s0 hNp.le, by gcongr; linarith⟩

/-- **C34**: efficiencies do not depend on the threads that simulated the photons. -/
theorem efficiencies_agree {C C' : Cfg ℝ} (hn : C'.n = C.n) (hne : C'.ne = C.ne) (hl : C'.leak = C.leak) (hD : C'.D = C.D) (h1 : 1 ≤ C.n)
    {asg asg' : Nat → List Nat} (hd : Distributes C asg) (hd' : Distributes C' asg') {k k' : Nat} {s s' : St ℝ} (hr : Reach C asg k s)
    (hr' : Reach C' asg' k' s') (hf : s.finished C) (hf' : s'.finished C')
    (hp : (allHist C (fun t => (s.thr t).hist)).Perm (allHist C' (fun t => (s'.thr t).hist))) (es : List ℝ) :
    (results C' es s').effs = (results C es s).effs := by
  have A := reports_agree hn hne hl hD hp (simulation_reports hd hr hf es) (simulation_reports hd' hr' hf' es)
  obtain ⟨l1, f1⟩ := efficiencies_formula hd h1 hr hf es
  obtain ⟨l2, f2⟩ := efficiencies_formula hd' (by omega) hr' hf' es
  apply List.ext_getElem (by omega)
  intro i hi hi'
  have g1 := f1 i (by omega)
  have g2 := f2 i (by omega)
  rw [List.getD_eq_getElem?_getD, List.getElem?_eq_getElem hi', Option.getD_some] at g1
  rw [List.getD_eq_getElem?_getD, List.getElem?_eq_getElem hi, Option.getD_some] at g2
  rw [g1, g2, A.2.1, hn, hne]
  congr 2
  refine List.map_congr_left (fun j hj => ?_)
  rw [(A.2.2.2.2.2.1 j (List.mem_range.1 hj)).2.2 i (by omega)]

end Polycap
