import Mathlib.Tactic.IntervalCases
import Verif.Source
import Verif.Props.DescriptionProps
import Verif.Props.Weights

/-!
# C27, C47, C07: `polycap_source_new`, `polycap_source_free`
-/
namespace Polycap
open CNum CM Mem
variable {α : Type} [CNum α]
set_option linter.unusedSectionVars false
set_option linter.unusedSimpArgs false

/-! ## Specification vocabulary -/

/-- What a user of a source can observe. -/
structure SrcView (α : Type) where
  descr : DescView α
  d_source : α
  src_x : α
  src_y : α
  src_sigx : α
  src_sigy : α
  src_shiftx : α
  src_shifty : α
  hor_pol : α
  energies : List α

/-- Reading a source object through its pointer (its generator must be there, too). -/
def readSource (h : Heap (Block α)) (s : Ptr) : Option (SrcView α) :=
  match s with
  | none => none
  | some a =>
    match h.mem a with
    | some (.source d (some r) ds x y sx sy hx hy pol _ (some en)) =>
      match readDescr h d, h.mem r, h.mem en with
      | some dv, some .rng, some (.doubles es) => some ⟨dv, ds, x, y, sx, sy, hx, hy, pol, es⟩
      | _, _, _ => none
    | _ => none

/-- The description and the energies handed in are really there, with full arrays. -/
structure SrcInput (h : Heap (Block α)) (a : SrcArgs α) (dv : DescView α) (es : List α) : Prop where
  descr : readDescr h a.description = some dv
  il : dv.iz.length = dv.nelem
  wl : dv.wi.length = dv.nelem
  zl : dv.profile.2.1.length = dv.profile.1 + 1
  cl : dv.profile.2.2.1.length = dv.profile.1 + 1
  xl : dv.profile.2.2.2.length = dv.profile.1 + 1
  energies : ∃ i rest, a.energies = some i ∧ h.mem i = some (.doubles (es ++ rest))
  el : es.length = a.n_energies

/-- The documented domain of `polycap_source_new`; the description has to be one `polycap_description_new` accepts. -/
structure SrcDomain (a : SrcArgs α) (dv : DescView α) (es : List α) : Prop where
  d : (a.d_source <=. lit 0) = false
  x : (a.src_x <=. lit 0) = false
  y : (a.src_y <=. lit 0) = false
  pol : (fabs a.hor_pol >. lit 1) = false
  n : 1 ≤ a.n_energies
  range : ∀ e ∈ es, (e <. lit 1) = false ∧ (e >. lit 100) = false
  profile : validate (listProfile dv.profile.1 dv.profile.2.1 dv.profile.2.2.1 dv.profile.2.2.2) dv.n_cap = 1
  rough : (dv.sig_rough <. lit 0) = false
  ncap : 1 < dv.n_cap
  nelem : 1 ≤ dv.nelem
  density : (dv.density <=. lit 0) = false
  z : ∀ z ∈ dv.iz, 1 ≤ z ∧ z ≤ 111

/-! ## Helpers -/

theorem readProfile_mono {h h' : Heap (Block α)} (agree : ∀ x b, h.mem x = some b → h'.mem x = some b) {p : Ptr}
    {r : Nat × List α × List α × List α} (hp : readProfile h p = some r) : readProfile h' p = some r := by
  obtain ⟨n, zs, cs, es⟩ := r
  obtain ⟨pa, z, c, ee, rfl, m1, m2, m3, m4⟩ := readProfile_unfold hp
  simp [readProfile, agree _ _ m1, agree _ _ m2, agree _ _ m3, agree _ _ m4]

theorem readDescr_unfold {h : Heap (Block α)} {d : Ptr} {dv : DescView α} (hd : readDescr h d = some dv) :
    ∃ a i w p, d = some a ∧ h.mem a = some (.descr dv.sig_rough dv.n_cap dv.open_area dv.nelem (some i) (some w) dv.density p) ∧
      h.mem i = some (.ints dv.iz) ∧ h.mem w = some (.doubles dv.wi) ∧ readProfile h p = some dv.profile := by
  cases d with
  | none => simp [readDescr] at hd
  | some a =>
    simp only [readDescr] at hd
    split at hd <;> try contradiction
    rename_i s n o ne i w rho p hm
    split at hd <;> try contradiction
    rename_i is ws pr h1 h2 h3
    injection hd with hd
    subst hd
    exact ⟨a, i, w, p, rfl, hm, h1, h2, h3⟩

theorem readDescr_mono {h h' : Heap (Block α)} (agree : ∀ x b, h.mem x = some b → h'.mem x = some b) {d : Ptr}
    {dv : DescView α} (hd : readDescr h d = some dv) : readDescr h' d = some dv := by
  obtain ⟨a, i, w, p, rfl, m1, m2, m3, m4⟩ := readDescr_unfold hd
  simp [readDescr, agree _ _ m1, agree _ _ m2, agree _ _ m3, readProfile_mono agree m4]

theorem checkWeight_null (ws : List α) : (checkWeight ws none).2 = none := by
  simp only [checkWeight]
  repeat' split
  all_goals rfl

/-- the arguments of the nested `polycap_description_new` call -/
def nestedArgs (dv : DescView α) (p : Ptr) (i w : Nat) : DescArgs α :=
  ⟨p, dv.sig_rough, dv.n_cap, dv.nelem, some i, some w, dv.density⟩

/-- all outcomes of `polycap_source_new`, memory permitting (helper) -/
theorem source_new_outcomes (a : SrcArgs α) (e : EArg) (h : Heap (Block α)) (wf : h.WF) (ok : AllocOk h)
    (dv : DescView α) (es : List α) (inp : SrcInput h a dv es) :
    ∃ p e' h', (sourceNew a e).run h = some ((p, e'), h') ∧ h'.WF ∧
      ((p = none ∧ ¬ SrcDomain a dv es ∧ h'.mem = h.mem ∧ (e = some none → e' = some (some .invalidArgument))) ∨
       (p = some h.next ∧ SrcDomain a dv es ∧ e' = e ∧ ∃ hd,
          (∀ x, hd.mem x = upd (upd (upd h.mem h.next (some (.raw 0))) (h.next+1) (some (.doubles es))) (h.next+2) (some .rng) x) ∧
          hd.WF ∧ hd.next = h.next + 3 ∧ hd.orc = h.orc ∧ ∃ pp i w hd', 
            DescInput hd (nestedArgs dv pp i w) dv.iz dv.wi dv.profile.1 dv.profile.2.1 dv.profile.2.2.1 dv.profile.2.2.2 ∧
            (descriptionNew (nestedArgs dv pp i w) none).run hd = some ((some (h.next + 3), none), hd') ∧ hd'.WF ∧
            (∀ x, x < h.next + 3 → hd'.mem x = hd.mem x) ∧
            h'.mem = upd hd'.mem h.next (some (.source (some (h.next+3)) (some (h.next+2)) a.d_source a.src_x a.src_y a.src_sigx a.src_sigy
              a.src_shiftx a.src_shifty a.hor_pol a.n_energies (some (h.next+1)))) ∧ h'.next = hd'.next)) := by
  obtain ⟨hd, il, wl, zl, cl, xl, ⟨en, rest, ha, hen⟩, el⟩ := inp
  obtain ⟨da, i, w, p, hda, m1, m2, m3, m4⟩ := readDescr_unfold hd
  have hdn : a.description ≠ none := by rw [hda]; simp
  have hln : a.energies ≠ none := by rw [ha]; simp
  by_cases hr : srcRejects a = true
  · refine ⟨none, e.set .invalidArgument, h, by simp [sourceNew, hr], wf, Or.inl ⟨rfl, ?_, rfl, fun he => by rw [he]; rfl⟩⟩
    intro dm
    simp only [srcRejects, dm.d, dm.x, dm.y, dm.pol, hdn, hln, Bool.or_false, decide_false, Bool.false_or, decide_eq_true_eq] at hr
    have := dm.n
    omega
  simp only [Bool.not_eq_true] at hr
  have hl : (loadArr (α := α) a.energies a.n_energies).run h = some (es, h) := by
    simp [loadArr, run_bind, ha, run_load, hen, ← el]
  by_cases hb : es.any energyBad = true
  · refine ⟨none, e.set .invalidArgument, h, ?_, wf, Or.inl ⟨rfl, ?_, rfl, fun he => by rw [he]; rfl⟩⟩
    · simp only [sourceNew, hr, Bool.false_eq_true, if_false]
      rw [run_bind_some hl]
      simp only [hb, if_true]; rfl
    · intro dm
      rw [List.any_eq_true] at hb
      obtain ⟨x, hx, hxb⟩ := hb
      simp [energyBad, dm.range x hx] at hxb
  simp only [Bool.not_eq_true] at hb
  have hrange : ∀ x ∈ es, (x <. lit 1) = false ∧ (x >. lit 100) = false := by
    intro x hx
    rw [List.any_eq_false] at hb
    have := hb x hx
    simpa [energyBad] using this
  have hrej : (a.d_source <=. lit 0) = false ∧ (a.src_x <=. lit 0) = false ∧ (a.src_y <=. lit 0) = false ∧
      (fabs a.hor_pol >. lit 1) = false ∧ 1 ≤ a.n_energies := by
    simp only [srcRejects, Bool.or_eq_false_iff, decide_eq_false_iff_not] at hr
    obtain ⟨⟨⟨⟨⟨⟨_, h1⟩, h2⟩, h3⟩, h4⟩, h5⟩, _⟩ := hr
    exact ⟨h1, h2, h3, h4, by omega⟩
  rcases hpv : dv.profile with ⟨pn, zs, cs, xs⟩
  rw [hpv] at m4 zl cl xl
  simp only at zl cl xl
  obtain ⟨pa, z, c, ee, rfl, p1, p2, p3, p4⟩ := readProfile_unfold m4
  have tz : List.take (pn + 1) zs = zs := List.take_of_length_le (by omega)
  have tc : List.take (pn + 1) cs = cs := List.take_of_length_le (by omega)
  have tx : List.take (pn + 1) xs = xs := List.take_of_length_le (by omega)
  -- the part before the allocations
  by_cases hv : validate (listProfile pn zs cs xs) dv.n_cap = 1
  swap
  · refine ⟨none, (validateE (some (listProfile pn zs cs xs)) dv.n_cap e).2.clear.set .invalidArgument, h, ?_, wf, Or.inl ⟨rfl, ?_, rfl, ?_⟩⟩
    rotate_left
    · intro dm
      have := dm.profile
      rw [hpv] at this
      exact hv this
    rotate_left
    · simp only [sourceNew, hr, Bool.false_eq_true, if_false]
      rw [run_bind_some hl]
      simp only [hb, Bool.false_eq_true, if_false]
      simp [run_bind, loadDescr, hda, run_load, m1, loadProfile, p1, p2, p3, p4, loadArr, zl, cl, xl, tz, tc, tx, validateE, hv]
    · intro he; subst he
      simp only [validateE]
      split <;> rfl
  -- allocations
  have n0 : h.mem h.next = none := wf _ (le_refl _)
  have n1 : h.mem (h.next + 1) = none := wf _ (by omega)
  have n2 : h.mem (h.next + 2) = none := wf _ (by omega)
  let hm : Nat → Option (Block α) := upd (upd (upd h.mem h.next (some (.raw 0))) (h.next+1) (some (.doubles es))) (h.next+2) (some .rng)
  let hD : Heap (Block α) := { h with mem := hm, next := h.next + 3 }
  have agree : ∀ x b, h.mem x = some b → hD.mem x = some b := by
    intro x b hx
    have := lt_next_of_live wf hx
    show hm x = some b
    simp only [hm, upd]
    rw [if_neg (by omega), if_neg (by omega), if_neg (by omega)]
    exact hx
  have wfD : hD.WF := by
    intro x hx
    have hx : h.next + 3 ≤ x := hx
    show hm x = none
    simp only [hm, upd]
    rw [if_neg (by omega), if_neg (by omega), if_neg (by omega)]
    exact wf x (by omega)
  have inD : DescInput hD (nestedArgs dv (some pa) i w) dv.iz dv.wi pn zs cs xs :=
    ⟨⟨i, [], rfl, by simpa using agree _ _ m2⟩, ⟨w, [], rfl, by simpa using agree _ _ m3⟩, il, wl, readProfile_mono agree m4, zl, cl, xl⟩
  obtain ⟨q, e', h2, r, wf2, orc2, oc⟩ := description_new_outcomes (nestedArgs dv (some pa) i w) none hD wfD dv.iz dv.wi pn zs cs xs inD
  have pre : (sourceNew a e).run h = (do
      store (some h.next) (.source q (some (h.next+2)) a.d_source a.src_x a.src_y a.src_sigx a.src_sigy a.src_shiftx a.src_shifty a.hor_pol a.n_energies (some (h.next+1)))
      if q = none then do
        sourceFree (some h.next)
        pure (none, e.clear.set .invalidArgument)
      else pure ((some h.next : Ptr), e) : CM (Block α) (Ptr × EArg)).run h2 := by
    simp only [sourceNew, hr, Bool.false_eq_true, if_false]
    rw [run_bind_some hl]
    simp only [hb, Bool.false_eq_true, if_false]
    have hhD : ({ mem := upd (upd (upd (upd h.mem h.next (some (.raw 0))) (h.next + 1) (some (.raw a.n_energies)))
        (h.next + 1) (some (.doubles es))) (h.next + 1 + 1) (some .rng), next := h.next + 1 + 1 + 1, orc := h.orc } : Heap (Block α)) = hD := by
      simp only [hD, hm, upd_upd]
    simp only [run_bind, loadDescr, hda, run_load, m1, loadProfile, p1, p2, p3, p4, loadArr, zl, cl, xl, validateE, hv, run_pure,
      le_refl, if_true, ne_eq, not_true, if_false, run_malloc, ok _, storeArr, upd_same, el, run_store, reduceCtorEq,
      tz, tc, tx, Int.reduceNeg, Int.reduceEq]
    have hr' := r
    rw [nestedArgs] at hr'
    rw [hhD, hr']
  rw [pre]
  have hdom : SrcDomain a dv es ↔ descRejects (nestedArgs dv (some pa) i w) = false ∧ dv.iz.any badZ = false := by
    have := descDomain_iff (a := nestedArgs dv (some pa) i w) (is := dv.iz) (p := listProfile pn zs cs xs) (by simp [nestedArgs]) (by simp [nestedArgs])
    constructor
    · intro dm
      have := this.mp ⟨dm.rough, dm.ncap, dm.nelem, dm.density, dm.z, hv⟩
      exact ⟨this.1, this.2.1⟩
    · intro hh
      have := this.mpr ⟨hh.1, hh.2, hv⟩
      exact ⟨hrej.1, hrej.2.1, hrej.2.2.1, hrej.2.2.2.1, hrej.2.2.2.2, hrange, by rw [hpv]; exact hv, this.rough, this.ncap, this.nelem, this.density, this.z⟩
  rcases oc with ⟨rfl, hmem, hg, -⟩ | ⟨_, _, _, _, ⟨k, hk⟩, _⟩ | ⟨_, _, _, hv', _⟩ | ⟨rfl, g1, g2, _, he', hmem⟩
  · refine ⟨none, e.clear.set .invalidArgument, { h2 with mem := h.mem }, ?_, ?_, Or.inl ⟨rfl, ?_, rfl, fun he => by rw [he]; rfl⟩⟩
    · have e0 : h2.mem h.next = some (.raw 0) := by rw [hmem]; simp [hD, hm, upd]
      have e1 : h2.mem (h.next + 1) = some (.doubles es) := by rw [hmem]; simp [hD, hm, upd]
      have e2 : h2.mem (h.next + 2) = some .rng := by rw [hmem]; simp [hD, hm, upd]
      simp [run_bind, run_store, e0, sourceFree, run_load, descriptionFree, rngFree, run_free, upd, e1, e2]
      rw [hmem]
      clear wf wfD agree ok wf2 inD hrange
      funext x; simp only [upd, hD, hm]; grind
    · intro x hx
      have hx : h2.next ≤ x := hx
      have l2 : h2.mem (h.next + 2) = some .rng := by rw [hmem]; simp [hD, hm, upd]
      have := lt_next_of_live wf2 l2
      exact wf x (by omega)
    · rw [hdom]; rintro ⟨c1, c2⟩; rcases hg with hg | hg
      · rw [c1] at hg; cases hg
      · rw [c2] at hg; cases hg
  · rw [show hD.orc = h.orc from rfl, ok k] at hk; cases hk
  · exact absurd hv hv'
  · have hen : e' = none := by rw [he']; exact checkWeight_null _
    subst hen
    have rb := (description_reads_back _ none none hD h2 wfD _ dv.iz dv.wi pn zs cs xs inD r).2.1
    have e0 : h2.mem h.next = some (.raw 0) := by
      rw [rb h.next (by show _ < h.next + 3; omega)]; simp [hD, hm, upd]
    refine ⟨some h.next, e, { h2 with mem := upd h2.mem h.next (some (.source (some (h.next+3)) (some (h.next+2)) a.d_source a.src_x a.src_y a.src_sigx a.src_sigy
              a.src_shiftx a.src_shifty a.hor_pol a.n_energies (some (h.next+1)))) }, ?_, ?_, Or.inr ⟨rfl, hdom.mpr ⟨g1, g2⟩, rfl, hD, fun _ => rfl, wfD, rfl, rfl, some pa, i, w, h2, inD, r, wf2, fun x hx => rb x hx, rfl, rfl⟩⟩
    · simp [run_bind, run_store, e0]
      rfl
    · intro x hx
      have := lt_next_of_live wf2 e0
      have hx : h2.next ≤ x := hx
      simp only [upd]
      rw [if_neg (by omega)]
      exact wf2 x hx
/-! ## C27 -/

/-- the description a source keeps: composition after the weight check, theoretical open area recomputed, everything else equal -/
def copyOf (dv : DescView α) : DescView α :=
  ⟨dv.sig_rough, dv.n_cap, openArea (dv.profile.2.2.1.getD 0 (lit 0)) (dv.profile.2.2.2.getD 0 (lit 0)) dv.n_cap, dv.nelem, dv.iz,
    (checkWeight dv.wi none).1, dv.density, dv.profile⟩

/-- **C27.**  Memory permitting, `polycap_source_new` returns an object if and only if the arguments are in the documented domain;
otherwise it returns NULL, leaves memory as it was and the error slot (if empty before) holds INVALID_ARGUMENT. -/
theorem source_new_domain (a : SrcArgs α) (e : EArg) (h : Heap (Block α)) (wf : h.WF) (ok : AllocOk h)
    (dv : DescView α) (es : List α) (inp : SrcInput h a dv es) :
    ∃ p e' h', (sourceNew a e).run h = some ((p, e'), h') ∧
      (p ≠ none ↔ SrcDomain a dv es) ∧ (p ≠ none → e' = e) ∧
      (p = none → h'.mem = h.mem ∧ (e = some none → e' = some (some .invalidArgument))) := by
  obtain ⟨p, e', h', r, _, c⟩ := source_new_outcomes a e h wf ok dv es inp
  refine ⟨p, e', h', r, ?_⟩
  rcases c with ⟨rfl, nd, hm, he⟩ | ⟨rfl, dm, he, _⟩
  · exact ⟨⟨fun hh => absurd rfl hh, fun hh => absurd hh nd⟩, fun hh => absurd rfl hh, fun _ => ⟨hm, he⟩⟩
  · exact ⟨⟨fun _ => dm, fun _ => by simp⟩, fun _ => he, fun hh => by cases hh⟩

/-- **C27.**  A NULL description, NULL or empty energies, a non-positive distance or size, or a polarisation beyond ±1 is rejected before
any memory is read. -/
theorem source_new_rejects (a : SrcArgs α) (e : EArg) (h : Heap (Block α))
    (hn : a.description = none ∨ a.energies = none ∨ a.n_energies = 0 ∨ (a.d_source <=. lit 0) = true ∨ (a.src_x <=. lit 0) = true ∨
      (a.src_y <=. lit 0) = true ∨ (fabs a.hor_pol >. lit 1) = true) :
    (sourceNew a e).run h = some ((none, e.set .invalidArgument), h) := by
  have : srcRejects a = true := by
    simp only [srcRejects, Bool.or_eq_true, decide_eq_true_eq]
    rcases hn with hn | hn | hn | hn | hn | hn | hn <;> simp [hn]
  simp [sourceNew, this]

/-- **C27.**  A successful call returns an object that reads back as exactly the given values and a description with the given
values (composition after the weight check, theoretical open area recomputed), made of new blocks only; whatever happens to the caller's
description and energies later (any heap `g` that agrees on the new blocks), the source reads the same. -/
theorem source_reads_back (a : SrcArgs α) (e e' : EArg) (h h' : Heap (Block α)) (wf : h.WF) (ok : AllocOk h) (b : Nat)
    (dv : DescView α) (es : List α) (inp : SrcInput h a dv es) (r : (sourceNew a e).run h = some ((some b, e'), h')) :
    let view : SrcView α := ⟨copyOf dv,
      a.d_source, a.src_x, a.src_y, a.src_sigx, a.src_sigy, a.src_shiftx, a.src_shifty, a.hor_pol, es⟩
    readSource h' (some b) = some view ∧ (∀ x, x < h.next → h'.mem x = h.mem x) ∧
    (∀ g : Heap (Block α), (∀ x, h.next ≤ x → x < h'.next → g.mem x = h'.mem x) → readSource g (some b) = some view) := by
  obtain ⟨p, e'', h'', r', wf', c⟩ := source_new_outcomes a e h wf ok dv es inp
  rw [r] at r'
  simp only [Option.some.injEq, Prod.mk.injEq] at r'
  obtain ⟨⟨rfl, rfl⟩, rfl⟩ := r'
  rcases c with ⟨hp, _⟩ | ⟨hp, _, _, hd, hdm, wfd, hdn, orc, pp, i, w, hd', inD, rd, wfd', rb, hm, hn⟩
  · cases hp
  simp only [Option.some.injEq] at hp
  subst hp
  obtain ⟨v1, v2, v3⟩ := description_reads_back _ none none hd hd' wfd _ dv.iz dv.wi _ _ _ _ inD rd
  have key : ∀ g : Heap (Block α), (∀ x, h.next ≤ x → x < h'.next → g.mem x = h'.mem x) →
      readSource g (some h.next) = some ⟨copyOf dv,
        a.d_source, a.src_x, a.src_y, a.src_sigx, a.src_sigy, a.src_shiftx, a.src_shifty, a.hor_pol, es⟩ := by
    intro g hg
    have l3 : h'.next > h.next + 2 := by
      have : hd'.mem (h.next + 2) = some .rng := by rw [rb _ (by omega), hdm]; simp [upd]
      rw [hn]; exact lt_next_of_live wfd' this
    have g0 : g.mem h.next = _ := (hg h.next (le_refl _) (by omega)).trans (by rw [hm])
    have g1 : g.mem (h.next + 1) = some (.doubles es) := by
      rw [hg _ (by omega) (by omega), hm, upd_other _ _ (by omega), rb _ (by omega), hdm]; simp [upd]
    have g2 : g.mem (h.next + 2) = some .rng := by
      rw [hg _ (by omega) (by omega), hm, upd_other _ _ (by omega), rb _ (by omega), hdm]; simp [upd]
    have g3 := v3 g (by
      intro x hx hx'
      rw [hdn] at hx
      rw [hg x (by omega) (by rw [hn]; exact hx'), hm, upd_other _ _ (by omega)])
    rw [upd_same] at g0
    simp only [readSource, g0, g3, g1, g2]
    rfl
  refine ⟨key h' (fun _ _ _ => rfl), ?_, key⟩
  intro x hx
  rw [hm, upd_other _ _ (by omega), rb x (by omega), hdm]
  simp only [upd]
  rw [if_neg (by omega), if_neg (by omega), if_neg (by omega)]

/-- **C27.**  If the composition of the description adds up to one (as every composition accepted by `polycap_description_new` does,
`weights_normalised`), the source's own copy has exactly the same composition. -/
theorem source_copy_composition (a : SrcArgs ℝ) (e e' : EArg) (h h' : Heap (Block ℝ)) (wf : h.WF) (ok : AllocOk h) (b : Nat)
    (dv : DescView ℝ) (es : List ℝ) (inp : SrcInput h a dv es) (r : (sourceNew a e).run h = some ((some b, e'), h'))
    (hs : dv.wi.sum = 1) : ∃ v, readSource h' (some b) = some v ∧ v.descr.wi = dv.wi ∧ v.descr.iz = dv.iz ∧ v.descr.profile = dv.profile ∧
      v.descr.density = dv.density ∧ v.descr.n_cap = dv.n_cap ∧ v.descr.sig_rough = dv.sig_rough := by
  obtain ⟨v, _⟩ := source_reads_back a e e' h h' wf ok b dv es inp r
  refine ⟨_, v, ?_, rfl, rfl, rfl, rfl, rfl⟩
  simp only [copyOf, checkWeight, sumFrom_real, real_lit, gt, real_lt, real_beq]
  push_cast
  rw [zero_add, hs]
  norm_num

/-- **C47 (source).**  Freeing a freshly created source releases every block it owns exactly once: memory is as before the
construction. -/
theorem source_new_free_identity (a : SrcArgs α) (e e' : EArg) (h h' : Heap (Block α)) (wf : h.WF) (ok : AllocOk h) (b : Nat)
    (dv : DescView α) (es : List α) (inp : SrcInput h a dv es) (r : (sourceNew a e).run h = some ((some b, e'), h')) :
    ∃ h'', (sourceFree (some b)).run h' = some ((), h'') ∧ h''.mem = h.mem := by
  obtain ⟨p, e'', h'', r', wf', c⟩ := source_new_outcomes a e h wf ok dv es inp
  rw [r] at r'
  simp only [Option.some.injEq, Prod.mk.injEq] at r'
  obtain ⟨⟨rfl, rfl⟩, rfl⟩ := r'
  rcases c with ⟨hp, _⟩ | ⟨hp, _, _, hd, hdm, wfd, hdn, orc, pp, i, w, hd', inD, rd, wfd', rb, hm, hn⟩
  · cases hp
  simp only [Option.some.injEq] at hp
  subst hp
  obtain ⟨q, e3, h3, r3, _, _, oc⟩ := description_new_outcomes _ none hd wfd dv.iz dv.wi _ _ _ _ inD
  rw [rd] at r3
  simp only [Option.some.injEq, Prod.mk.injEq] at r3
  obtain ⟨⟨rfl, rfl⟩, rfl⟩ := r3
  rcases oc with ⟨hp, _⟩ | ⟨hp, _⟩ | ⟨hp, _⟩ | ⟨hp, _, _, _, he, hm2⟩
  · cases hp
  · cases hp
  · cases hp
  rw [hdn] at hm2
  have hmm : h'.mem = _ := hm
  rw [hm2, show hd.mem = _ from funext hdm] at hmm
  refine ⟨{ h' with mem := h.mem }, ?_, rfl⟩
  have u := wf
  have u0 := wf h.next (le_refl _)
  have u1 := wf (h.next+1) (by omega)
  have u2 := wf (h.next+2) (by omega)
  have u3 := wf (h.next+3) (by omega)
  have u4 := wf (h.next+4) (by omega)
  have u5 := wf (h.next+5) (by omega)
  have u6 := wf (h.next+6) (by omega)
  have u7 := wf (h.next+7) (by omega)
  have u8 := wf (h.next+8) (by omega)
  have u9 := wf (h.next+9) (by omega)
  simp [sourceFree, rngFree, descriptionFree, profileFree, loadProfile, run_bind, run_load, run_free, hmm, upd, Nat.add_assoc]
  clear wf wf' inp inD wfd wfd' rb hdm ok u rd r hm hm2 hmm
  funext x; simp only [upd]
  by_cases hx : ∃ j, j ≤ 9 ∧ x = h.next + j
  · obtain ⟨j, hj, rfl⟩ := hx
    interval_cases j <;> simp [u0, u1, u2, u3, u4, u5, u6, u7, u8, u9]
  · have hne : ∀ j, j ≤ 9 → x ≠ h.next + j := fun j hj he => hx ⟨j, hj, he⟩
    have := hne 0 (by omega)
    rw [Nat.add_zero] at this
    simp only [this, hne 1 (by omega), hne 2 (by omega), hne 3 (by omega), hne 4 (by omega), hne 5 (by omega), hne 6 (by omega),
      hne 7 (by omega), hne 8 (by omega), hne 9 (by omega), if_false]

/-- **C47 (source).**  NULL is accepted. -/
theorem source_free_null (h : Heap (Block α)) : (sourceFree none).run h = some ((), h) := rfl

/-! ## Out of memory (C07) -/

/-- Finding (C07): if the allocation of the energies fails, the source struct is not released. -/
theorem source_new_leaks (a : SrcArgs α) (e : EArg) (h : Heap (Block α)) (wf : h.WF) (dv : DescView α) (es : List α)
    (inp : SrcInput h a dv es) (dm : SrcDomain a dv es) (o0 : h.orc h.next = true) (o1 : h.orc (h.next + 1) = false) :
    ∃ h', (sourceNew a e).run h = some ((none, e.set .memory), h') ∧ h.mem h.next = none ∧ h'.mem h.next ≠ none := by
  obtain ⟨hd, il, wl, zl, cl, xl, ⟨en, rest, ha, hen⟩, el⟩ := inp
  obtain ⟨da, i, w, p, hda, m1, m2, m3, m4⟩ := readDescr_unfold hd
  have hr : srcRejects a = false := by
    have := dm.n
    simp [srcRejects, hda, ha, dm.d, dm.x, dm.y, dm.pol]
    omega
  have hb : es.any energyBad = false := by
    rw [List.any_eq_false]
    intro x hx
    simp [energyBad, dm.range x hx]
  have hl : (loadArr (α := α) a.energies a.n_energies).run h = some (es, h) := by
    simp [loadArr, run_bind, ha, run_load, hen, ← el]
  have hv := dm.profile
  rcases hpv : dv.profile with ⟨pn, zs, cs, xs⟩
  rw [hpv] at m4 zl cl xl hv
  simp only at zl cl xl hv
  obtain ⟨pa, z, c, ee, rfl, p1, p2, p3, p4⟩ := readProfile_unfold m4
  have tz : List.take (pn + 1) zs = zs := List.take_of_length_le (by omega)
  have tc : List.take (pn + 1) cs = cs := List.take_of_length_le (by omega)
  have tx : List.take (pn + 1) xs = xs := List.take_of_length_le (by omega)
  refine ⟨{ h with mem := upd h.mem h.next (some (.raw 0)), next := h.next + 1 + 1 }, ?_, wf _ (le_refl _), ?_⟩
  · simp only [sourceNew, hr, Bool.false_eq_true, if_false]
    rw [run_bind_some hl]
    simp only [hb, Bool.false_eq_true, if_false]
    simp only [run_bind, loadDescr, hda, run_load, m1, loadProfile, p1, p2, p3, p4, loadArr, zl, cl, xl, validateE, hv, run_pure,
      le_refl, if_true, ne_eq, not_true, if_false, run_malloc, o0, o1, reduceCtorEq, tz, tc, tx, Int.reduceNeg, Bool.false_eq_true]
  · simp [upd]


/-! ## A concrete call meeting the hypotheses -/

/-- memory with a description (profile of three points, two elements) and two energies -/
noncomputable def exSrcHeap : Heap (Block ℝ) :=
  { mem := fun a => match a with
      | 0 => some (.profile 2 (some 1) (some 2) (some 3))
      | 1 => some (.doubles [0, 1, 2])
      | 2 => some (.doubles [0.1, 0.1, 0.1])
      | 3 => some (.doubles [1, 0.9, 0.8])
      | 4 => some (.ints [8, 14])
      | 5 => some (.doubles [0.53, 0.47])
      | 6 => some (.descr 5 2 0.5 2 (some 4) (some 5) 2.23 (some 0))
      | 7 => some (.doubles [10, 20])
      | _ => none
    next := 8
    orc := fun _ => true }

noncomputable def exSrcArgs : SrcArgs ℝ := ⟨some 6, 10, 1, 2, -1, -1, 0, 0, 0.5, 2, some 7⟩

noncomputable def exSrcDescr : DescView ℝ :=
  ⟨5, 2, 0.5, 2, [8, 14], [0.53, 0.47], 2.23, (2, [0, 1, 2], [0.1, 0.1, 0.1], [1, 0.9, 0.8])⟩

theorem exSrcInput : SrcInput exSrcHeap exSrcArgs exSrcDescr [10, 20] where
  descr := rfl
  il := rfl
  wl := rfl
  zl := rfl
  cl := rfl
  xl := rfl
  energies := ⟨7, [], rfl, rfl⟩
  el := rfl

theorem exSrcDomain : SrcDomain exSrcArgs exSrcDescr [10, 20] where
  d := by norm_num [exSrcArgs]
  x := by norm_num [exSrcArgs]
  y := by norm_num [exSrcArgs]
  pol := by
    simp only [exSrcArgs, gt, real_lt, real_fabs, real_lit, decide_eq_false_iff_not, not_lt]
    norm_num [abs_of_nonneg]
  n := by decide
  range := by
    intro e he
    simp only [List.mem_cons, List.not_mem_nil, or_false] at he
    rcases he with rfl | rfl <;> norm_num [gt]
  profile := exDomain.profile
  rough := by norm_num [exSrcDescr]
  ncap := by decide
  nelem := by decide
  density := by norm_num [exSrcDescr]
  z := by intro z hz; simp [exSrcDescr] at hz; omega

theorem exSrcHeap_wf : exSrcHeap.WF ∧ AllocOk exSrcHeap := by
  constructor
  · intro a ha
    have : 8 ≤ a := ha
    match a, this with
    | (k + 8), _ => rfl
  · intro n; rfl

example : ∃ p h', (sourceNew exSrcArgs (some none)).run exSrcHeap = some ((some p, some none), h') := by
  obtain ⟨p, e', h', r, h1, h2, _⟩ := source_new_domain exSrcArgs (some none) exSrcHeap exSrcHeap_wf.1 exSrcHeap_wf.2 _ _ exSrcInput
  have hp := h1.mpr exSrcDomain
  rw [h2 hp] at r
  cases p with
  | none => exact absurd rfl hp
  | some p => exact ⟨p, h', r⟩

end Polycap
