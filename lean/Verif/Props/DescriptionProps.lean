import Verif.Description
import Verif.Props.ProfileHeap
import Verif.Props.Validate

/-!
# C07, C10, C11, C14, C47: `polycap_description_new`, `polycap_description_free`
-/
namespace Polycap
open CNum CM Mem
variable {α : Type} [CNum α]

/-! ## Specification vocabulary -/

/-- What a user of a description can observe. -/
structure DescView (α : Type) where
  sig_rough : α
  n_cap : Int
  open_area : α
  nelem : Nat
  iz : List Int
  wi : List α
  density : α
  /-- interval count and the three arrays of its own profile -/
  profile : Nat × List α × List α × List α

/-- Reading a description object through its pointer. -/
def readDescr (h : Heap (Block α)) (d : Ptr) : Option (DescView α) :=
  match d with
  | none => none
  | some a =>
    match h.mem a with
    | some (.descr s n o ne (some i) (some w) rho p) =>
      match h.mem i, h.mem w, readProfile h p with
      | some (.ints is), some (.doubles ws), some pr => some ⟨s, n, o, ne, is, ws, rho, pr⟩
      | _, _, _ => none
    | _ => none

/-- The caller's arrays and profile object are really there: `nelem` atomic numbers and weights, and a
profile with full arrays. -/
structure DescInput (h : Heap (Block α)) (a : DescArgs α) (is : List Int) (ws : List α) (n : Nat)
    (zs cs es : List α) : Prop where
  iz : ∃ i rest, a.iz = some i ∧ h.mem i = some (.ints (is ++ rest))
  wi : ∃ w rest, a.wi = some w ∧ h.mem w = some (.doubles (ws ++ rest))
  il : is.length = a.nelem
  wl : ws.length = a.nelem
  prof : readProfile h a.profile = some (n, zs, cs, es)
  zl : zs.length = n + 1
  cl : cs.length = n + 1
  el : es.length = n + 1

theorem percentLoop_length : ∀ (ws : List α) (s : α), (percentLoop s ws).1.length = ws.length
  | [], _ => rfl
  | w :: ws, s => by
    simp only [percentLoop]
    split
    · simp
    · simp [percentLoop_length ws]

theorem checkWeight_length (ws : List α) (e : EArg) : (checkWeight ws e).1.length = ws.length := by
  simp only [checkWeight]
  split
  · have := percentLoop_length ws (lit 0)
    cases hp : percentLoop (lit 0) ws with
    | mk l o => rw [hp] at this; cases o <;> simpa using this
  · rfl

theorem lt_next_of_live {B} {h : Heap B} (wf : h.WF) {x : Nat} {b : B} (hx : h.mem x = some b) : x < h.next := by
  by_contra hc
  rw [wf x (by omega)] at hx; cases hx

theorem readProfile_unfold {h : Heap (Block α)} {p : Ptr} {n zs cs es}
    (hpr : readProfile h p = some (n, zs, cs, es)) :
    ∃ pa z c ee, p = some pa ∧ h.mem pa = some (.profile n (some z) (some c) (some ee)) ∧
      h.mem z = some (.doubles zs) ∧ h.mem c = some (.doubles cs) ∧ h.mem ee = some (.doubles es) := by
  cases p with
  | none => simp [readProfile] at hpr
  | some pa =>
    simp only [readProfile] at hpr
    split at hpr <;> try contradiction
    rename_i n' z c ee hm
    split at hpr <;> try contradiction
    rename_i zs' cs' es' q1 q2 q3
    simp at hpr
    obtain ⟨rfl, rfl, rfl, rfl⟩ := hpr
    exact ⟨pa, z, c, ee, rfl, hm, q1, q2, q3⟩

/-- Outcomes of the second half (helper). -/
theorem descProfilePart_outcomes (a : DescArgs α) (e : EArg) (h : Heap (Block α)) (wf : h.WF)
    (d i w : Nat) (bd bi bw : Block α) (md : h.mem d = some bd) (mi : h.mem i = some bi) (mw : h.mem w = some bw)
    (di : d ≠ i) (dw : d ≠ w) (iw : i ≠ w)
    (n : Nat) (zs cs es : List α) (hpr : readProfile h a.profile = some (n, zs, cs, es))
    (zl : zs.length = n + 1) (cl : cs.length = n + 1) (el : es.length = n + 1) :
    ∃ p e' h', (descProfilePart a (some d) (some i) (some w) e).run h = some ((p, e'), h') ∧ h'.WF ∧ h'.orc = h.orc ∧
      ((p = none ∧ h'.mem = upd (upd (upd h.mem d none) i none) w none ∧ (∃ k, h.orc k = false) ∧ e' = e.set .memory) ∨
       (p = none ∧ validate (listProfile n zs cs es) a.n_cap ≠ 1 ∧
          h'.mem = upd (upd (upd (upd h.mem d none) i none) w none) (h.next + 3) (some (.doubles es)) ∧
          e' = e.clear.set .invalidArgument) ∨
       (p = some d ∧ validate (listProfile n zs cs es) a.n_cap = 1 ∧ e' = e ∧
          h'.mem = upd (upd (upd (upd (upd h.mem
            d (some (.descr a.sig_rough a.n_cap (openArea (cs.getD 0 (lit 0)) (es.getD 0 (lit 0)) a.n_cap)
              a.nelem (some i) (some w) a.density (some h.next))))
            (h.next) (some (.profile n (some (h.next+1)) (some (h.next+2)) (some (h.next+3)))))
            (h.next+1) (some (.doubles zs))) (h.next+2) (some (.doubles cs))) (h.next+3) (some (.doubles es)))) := by
  obtain ⟨pa, z, c, ee, hpa, mp, mz, mc, me⟩ := readProfile_unfold hpr
  have i0 := lt_next_of_live wf mi; have w0 := lt_next_of_live wf mw; have d0 := lt_next_of_live wf md
  have pa0 := lt_next_of_live wf mp
  have z0 := lt_next_of_live wf mz; have c0 := lt_next_of_live wf mc; have e0 := lt_next_of_live wf me
  have di1 : d ≠ h.next := by omega
  have di2 : ∀ k, d ≠ h.next + k := by intro k; omega
  have ii1 : i ≠ h.next := by omega
  have ii2 : ∀ k, i ≠ h.next + k := by intro k; omega
  have wi1 : w ≠ h.next := by omega
  have wi2 : ∀ k, w ≠ h.next + k := by intro k; omega
  have di1' : h.next ≠ d := by omega
  have di2' : ∀ k, h.next + k ≠ d := by intro k; omega
  have ii1' : h.next ≠ i := by omega
  have ii2' : ∀ k, h.next + k ≠ i := by intro k; omega
  have wi1' : h.next ≠ w := by omega
  have wi2' : ∀ k, h.next + k ≠ w := by intro k; omega
  have pi1 : pa ≠ h.next := by omega
  have pi2 : ∀ k, pa ≠ h.next + k := by intro k; omega
  have zi1 : z ≠ h.next := by omega
  have zi2 : ∀ k, z ≠ h.next + k := by intro k; omega
  have ci1 : c ≠ h.next := by omega
  have ci2 : ∀ k, c ≠ h.next + k := by intro k; omega
  have ei1 : ee ≠ h.next := by omega
  have ei2 : ∀ k, ee ≠ h.next + k := by intro k; omega
  have u0 := wf h.next (le_refl _)
  have u1 := wf (h.next+1) (by omega)
  have u2 := wf (h.next+2) (by omega)
  have u3 := wf (h.next+3) (by omega)
  have iw' := Ne.symm iw; have di' := Ne.symm di; have dw' := Ne.symm dw
  have tz : List.take (n + 1) zs = zs := List.take_of_length_le (by omega)
  have tc : List.take (n + 1) cs = cs := List.take_of_length_le (by omega)
  have te : List.take (n + 1) es = es := List.take_of_length_le (by omega)
  have wfn : ∀ k (m : Heap (Block α)), m.mem = upd (upd (upd h.mem d none) i none) w none → m.next = h.next + k → m.WF := by
    intro k m hm hn x hx
    rw [hm]; simp only [upd]
    rw [if_neg (by omega), if_neg (by omega), if_neg (by omega)]
    exact wf x (by omega)
  simp only [descProfilePart]
  cases o0 : h.orc h.next with
  | false =>
    refine ⟨none, e.set .memory, ⟨upd (upd (upd h.mem d none) i none) w none, h.next + 1, h.orc⟩, ?_, wfn 1 _ rfl rfl, rfl, Or.inl ⟨rfl, rfl, ⟨_, o0⟩, rfl⟩⟩
    simp [run_bind, run_malloc, run_free, o0, upd, mi, mw, md, iw, di, dw, iw', di', dw']
    clear di2 ii2 wi2 di2' ii2' wi2' pi2 zi2 ci2 ei2 wfn wf mp mz mc me tz tc te; funext x; simp only [upd]; grind
  | true =>
  cases o1 : h.orc (h.next+1) with
  | false =>
    refine ⟨none, e.set .memory, ⟨upd (upd (upd h.mem d none) i none) w none, h.next + 2, h.orc⟩, ?_, wfn 2 _ rfl rfl, rfl, Or.inl ⟨rfl, rfl, ⟨_, o1⟩, rfl⟩⟩
    simp [run_bind, run_malloc, run_free, run_load, o0, o1, upd, mi, mw, md, iw, di, dw, iw', di', dw', loadProfile, hpa, pi1, mp,
      di1, ii1, wi1, di1', ii1', wi1', Nat.add_assoc]
    clear di2 ii2 wi2 di2' ii2' wi2' pi2 zi2 ci2 ei2 wfn wf mp mz mc me tz tc te; funext x; simp only [upd]; grind
  | true =>
  cases o2 : h.orc (h.next+2) with
  | false =>
    refine ⟨none, e.set .memory, ⟨upd (upd (upd h.mem d none) i none) w none, h.next + 3, h.orc⟩, ?_, wfn 3 _ rfl rfl, rfl, Or.inl ⟨rfl, rfl, ⟨_, o2⟩, rfl⟩⟩
    simp [run_bind, run_malloc, run_free, run_load, o0, o1, o2, upd, mi, mw, md, iw, di, dw, iw', di', dw', loadProfile, hpa, pi1, pi2, mp,
      di1, ii1, wi1, di1', ii1', wi1', di2, ii2, wi2, di2', ii2', wi2', Nat.add_assoc]
    clear di2 ii2 wi2 di2' ii2' wi2' pi2 zi2 ci2 ei2 wfn wf mp mz mc me tz tc te; funext x; simp only [upd]; grind
  | true =>
  cases o3 : h.orc (h.next+3) with
  | false =>
    refine ⟨none, e.set .memory, ⟨upd (upd (upd h.mem d none) i none) w none, h.next + 4, h.orc⟩, ?_, wfn 4 _ rfl rfl, rfl, Or.inl ⟨rfl, rfl, ⟨_, o3⟩, rfl⟩⟩
    simp [run_bind, run_malloc, run_free, run_load, o0, o1, o2, o3, upd, mi, mw, md, iw, di, dw, iw', di', dw', loadProfile, hpa, pi1, pi2, mp,
      di1, ii1, wi1, di1', ii1', wi1', di2, ii2, wi2, di2', ii2', wi2', Nat.add_assoc]
    clear di2 ii2 wi2 di2' ii2' wi2' pi2 zi2 ci2 ei2 wfn wf mp mz mc me tz tc te; funext x; simp only [upd]; grind
  | true =>
  by_cases hv : validate (listProfile n zs cs es) a.n_cap = 1
  · refine ⟨_, _, ⟨upd (upd (upd (upd (upd h.mem
            d (some (.descr a.sig_rough a.n_cap (openArea (cs.getD 0 (lit 0)) (es.getD 0 (lit 0)) a.n_cap)
              a.nelem (some i) (some w) a.density (some h.next))))
            (h.next) (some (.profile n (some (h.next+1)) (some (h.next+2)) (some (h.next+3)))))
            (h.next+1) (some (.doubles zs))) (h.next+2) (some (.doubles cs))) (h.next+3) (some (.doubles es)), h.next + 4, h.orc⟩, ?_, ?_, rfl, Or.inr (Or.inr ⟨rfl, hv, rfl, rfl⟩)⟩
    · simp [run_bind, run_malloc, run_load, run_store, storeArr, loadArr,
        o0, o1, o2, o3, upd, Nat.add_assoc, loadProfile, hpa, pi1, pi2, mp, md, di1, di2,
        zi1, zi2, ci1, ci2, ei1, ei2, mz, mc, me, zl, cl, el, tz, tc, te, validateE, hv]
      clear di2 ii2 wi2 di2' ii2' wi2' pi2 zi2 ci2 ei2 wfn wf mp mz mc me tz tc te; funext x; simp only [upd]; grind
    · intro x hx
      simp at hx
      simp only [upd]
      rw [if_neg (by omega), if_neg (by omega), if_neg (by omega), if_neg (by omega), if_neg (by omega)]
      exact wf x (by omega)
  · refine ⟨_, _, ⟨upd (upd (upd (upd h.mem d none) i none) w none) (h.next + 3) (some (.doubles es)), h.next + 4, h.orc⟩, ?_, ?_, rfl, Or.inr (Or.inl ⟨rfl, hv, rfl, rfl⟩)⟩
    · have hcl : (if validate (listProfile n zs cs es) a.n_cap = -1 then e.set .invalidArgument
          else e).clear = e.clear := by
        split
        · rcases e with _ | _ | _ <;> rfl
        · rfl
      simp [run_bind, run_malloc, run_free, run_load, run_store, storeArr, loadArr,
        o0, o1, o2, o3, upd, Nat.add_assoc, loadProfile, hpa, pi1, pi2, mp, md, mi, mw, iw, di, dw, iw', di', dw',
        di1, ii1, wi1, di1', ii1', wi1', di2, ii2, wi2, di2', ii2', wi2',
        zi1, zi2, ci1, ci2, ei1, ei2, mz, mc, me, zl, cl, el, tz, tc, te, validateE, hv]
      refine ⟨?_, ?_⟩
      · rw [hcl]
      · clear di2 ii2 wi2 di2' ii2' wi2' pi2 zi2 ci2 ei2 wfn wf mp mz mc me tz tc te; funext x; simp only [upd]; grind
    · intro x hx
      simp at hx
      simp only [upd]
      rw [if_neg (by omega), if_neg (by omega), if_neg (by omega), if_neg (by omega)]
      exact wf x (by omega)

/-- All outcomes of `polycap_description_new` on a call with real arrays and a real profile (helper
for the property theorems below). -/
theorem description_new_outcomes (a : DescArgs α) (e : EArg) (h : Heap (Block α)) (wf : h.WF)
    (is : List Int) (ws : List α) (n : Nat) (zs cs es : List α)
    (inp : DescInput h a is ws n zs cs es) :
    ∃ p e' h', (descriptionNew a e).run h = some ((p, e'), h') ∧ h'.WF ∧ h'.orc = h.orc ∧
      (-- a guard fired
       (p = none ∧ h'.mem = h.mem ∧ (descRejects a = true ∨ is.any badZ = true) ∧ e' = e.set .invalidArgument) ∨
       -- out of memory
       (p = none ∧ h'.mem = h.mem ∧ descRejects a = false ∧ is.any badZ = false ∧ (∃ k, h.orc k = false) ∧
          (e' = e.set .memory ∨ e' = (checkWeight ws e).2.set .memory)) ∨
       -- infeasible profile
       (p = none ∧ descRejects a = false ∧ is.any badZ = false ∧
          validate (listProfile n zs cs es) a.n_cap ≠ 1 ∧
          h'.mem = upd h.mem (h.next + 6) (some (.doubles es)) ∧
          e' = (checkWeight ws e).2.clear.set .invalidArgument) ∨
       -- success
       (p = some h.next ∧ descRejects a = false ∧ is.any badZ = false ∧
          validate (listProfile n zs cs es) a.n_cap = 1 ∧ e' = (checkWeight ws e).2 ∧
          h'.mem = upd (upd (upd (upd (upd (upd (upd h.mem
            (h.next+1) (some (.ints is))) (h.next+2) (some (.doubles (checkWeight ws e).1)))
            h.next (some (.descr a.sig_rough a.n_cap (openArea (cs.getD 0 (lit 0)) (es.getD 0 (lit 0)) a.n_cap)
              a.nelem (some (h.next+1)) (some (h.next+2)) a.density (some (h.next+3)))))
            (h.next+3) (some (.profile n (some (h.next+4)) (some (h.next+5)) (some (h.next+6)))))
            (h.next+4) (some (.doubles zs))) (h.next+5) (some (.doubles cs))) (h.next+6) (some (.doubles es)))) := by
  obtain ⟨⟨i, ir, hi, hmi⟩, ⟨w, wr, hw, hmw⟩, il, wl, hpr, zl, cl, el⟩ := inp
  by_cases hr : descRejects a = true
  · exact ⟨none, _, h, by simp [descriptionNew, hr], wf, rfl, Or.inl ⟨rfl, rfl, Or.inl hr, rfl⟩⟩
  simp only [Bool.not_eq_true] at hr
  have hload : (loadInts (α := α) a.iz a.nelem).run h = some (is, h) := by
    simp [loadInts, run_bind, hi, run_load, hmi, ← il]
  by_cases hz : is.any badZ = true
  · refine ⟨none, _, h, ?_, wf, rfl, Or.inl ⟨rfl, rfl, Or.inr hz, rfl⟩⟩
    simp only [descriptionNew, hr, Bool.false_eq_true, if_false]
    rw [run_bind_some hload]
    simp only [hz, if_true]; rfl
  simp only [Bool.not_eq_true] at hz
  have w0 := lt_next_of_live wf hmw
  have wi1 : w ≠ h.next := by omega
  have wi2 : ∀ k, w ≠ h.next + k := by intro k; omega
  have lw := checkWeight_length ws e
  have u0 := wf h.next (le_refl _)
  have u1 := wf (h.next+1) (by omega)
  have u2 := wf (h.next+2) (by omega)
  have wfn : ∀ k (m : Heap (Block α)), m.mem = h.mem → m.next = h.next + k → m.WF := by
    intro k m hm hn x hx
    rw [hm]; exact wf x (by omega)
  simp only [descriptionNew, hr, Bool.false_eq_true, if_false]
  rw [run_bind_some hload]
  cases o0 : h.orc h.next with
  | false =>
    refine ⟨none, e.set .memory, { h with next := h.next + 1 }, ?_, wfn 1 _ rfl rfl, rfl, Or.inr (Or.inl ⟨rfl, rfl, trivial, hz, ⟨_, o0⟩, Or.inl rfl⟩)⟩
    simp [hz, run_bind, run_malloc, o0]
  | true =>
  cases o1 : h.orc (h.next+1) with
  | false =>
    refine ⟨none, e.set .memory, { h with next := h.next + 2 }, ?_, wfn 2 _ rfl rfl, rfl, Or.inr (Or.inl ⟨rfl, rfl, trivial, hz, ⟨_, o1⟩, Or.inl rfl⟩)⟩
    simp [hz, run_bind, run_malloc, run_free, o0, o1]
    clear wi2 wfn wf; funext x; simp only [upd]; grind
  | true =>
  cases o2 : h.orc (h.next+2) with
  | false =>
    refine ⟨none, e.set .memory, { h with next := h.next + 3 }, ?_, wfn 3 _ rfl rfl, rfl, Or.inr (Or.inl ⟨rfl, rfl, trivial, hz, ⟨_, o2⟩, Or.inl rfl⟩)⟩
    simp [hz, run_bind, run_malloc, run_free, o0, o1, o2, upd, Nat.add_assoc]
    clear wi2 wfn wf; funext x; simp only [upd]; grind
  | true =>
  -- state after the first half
  let m1 : Nat → Option (Block α) := upd (upd (upd h.mem h.next (some (.raw 0))) (h.next+1) (some (.ints is)))
    (h.next+2) (some (.doubles (checkWeight ws e).1))
  let h1 : Heap (Block α) := ⟨m1, h.next + 3, h.orc⟩
  have wf1 : h1.WF := by
    intro x hx
    simp only [h1] at hx
    simp only [h1, m1, upd]
    rw [if_neg (by omega), if_neg (by omega), if_neg (by omega)]
    exact wf x (by omega)
  have hpr1 : readProfile h1 a.profile = some (n, zs, cs, es) := by
    obtain ⟨pa, z, c, ee, hpa, mp, mz, mc, me⟩ := readProfile_unfold hpr
    have k : ∀ {x b}, h.mem x = some b → h1.mem x = some b := by
      intro x b hx
      have := lt_next_of_live wf hx
      simp only [h1, m1, upd]
      rw [if_neg (by omega), if_neg (by omega), if_neg (by omega)]; exact hx
    simp only [readProfile, hpa, k mp, k mz, k mc, k me]
  obtain ⟨p, e', h', r, wf', orc', cases'⟩ := descProfilePart_outcomes a (checkWeight ws e).2 h1 wf1 h.next (h.next+1) (h.next+2)
    (.raw 0) (.ints is) (.doubles (checkWeight ws e).1) (by simp [h1, m1, upd]) (by simp [h1, m1, upd]) (by simp [h1, m1, upd])
    (by omega) (by omega) (by omega) n zs cs es hpr1 zl cl el
  refine ⟨p, e', h', ?_, wf', orc', ?_⟩
  · rw [← r]
    simp [hz, run_bind, run_malloc, run_load, run_store, storeInts, storeArr, loadArr, hw, hmw,
      o0, o1, o2, upd, Nat.add_assoc, wi1, wi2, il, ← wl, lw]
    congr 1
    simp only [h1, m1]
    congr 1
    clear wi2 wfn wf wf1 hpr1 cases'; funext x; simp only [upd]; grind
  · rcases cases' with ⟨hp, hm, hk, he⟩ | ⟨hp, hv, hm, he⟩ | ⟨hp, hv, he, hm⟩
    · refine Or.inr (Or.inl ⟨hp, ?_, trivial, hz, hk, Or.inr he⟩)
      rw [hm]
      simp only [h1, m1]
      clear wi2 wfn wf wf1 hpr1; funext x; simp only [upd]; grind
    · refine Or.inr (Or.inr (Or.inl ⟨hp, trivial, hz, hv, ?_, he⟩))
      rw [hm]
      simp only [h1, m1]
      clear wi2 wfn wf wf1 hpr1; funext x; simp only [upd]; grind
    · refine Or.inr (Or.inr (Or.inr ⟨hp, trivial, hz, hv, he, ?_⟩))
      rw [hm]
      simp only [h1, m1, Nat.add_assoc, Nat.reduceAdd]
      clear wi2 wfn wf wf1 hpr1; funext x; simp only [upd]; grind

/-- The documented argument domain of `polycap_description_new` (for any number type), given that the
arrays and the profile are there. -/
structure DescDomain (a : DescArgs α) (is : List Int) (p : Profile α) : Prop where
  rough : (a.sig_rough <. lit 0) = false
  ncap : 1 < a.n_cap
  nelem : 1 ≤ a.nelem
  density : (a.density <=. lit 0) = false
  z : ∀ z ∈ is, 1 ≤ z ∧ z ≤ 111
  profile : validate p a.n_cap = 1

theorem descDomain_iff {a : DescArgs α} {is : List Int} {p : Profile α} (h1 : a.iz ≠ none) (h2 : a.wi ≠ none) :
    DescDomain a is p ↔ descRejects a = false ∧ is.any badZ = false ∧ validate p a.n_cap = 1 := by
  have hz : is.any badZ = false ↔ ∀ z ∈ is, 1 ≤ z ∧ z ≤ 111 := by
    simp [List.any_eq_false, badZ]
  rw [hz]
  simp only [descRejects, Bool.or_eq_false_iff, decide_eq_false_iff_not, h1, h2, not_false_eq_true, and_true]
  constructor
  · rintro ⟨c1, c2, c3, c4, c5, c6⟩
    exact ⟨⟨⟨⟨c1, by omega⟩, by omega⟩, c4⟩, c5, c6⟩
  · rintro ⟨⟨⟨⟨c1, c2⟩, c3⟩, c4⟩, c5, c6⟩
    exact ⟨c1, by omega, by omega, c4, c5, c6⟩

/-- **C10.**  Memory permitting, `polycap_description_new` returns an object if and only if the arguments
are in the documented domain; otherwise it returns NULL and the error slot ends up holding
INVALID_ARGUMENT (in a slot that was empty before). -/
theorem description_new_domain (a : DescArgs α) (e : EArg) (h : Heap (Block α)) (wf : h.WF) (ok : AllocOk h)
    (is : List Int) (ws : List α) (n : Nat) (zs cs es : List α) (inp : DescInput h a is ws n zs cs es) :
    ∃ p e' h', (descriptionNew a e).run h = some ((p, e'), h') ∧
      (p ≠ none ↔ DescDomain a is (listProfile n zs cs es)) ∧
      (p = none → e = some none → e' = some (some .invalidArgument)) := by
  obtain ⟨p, e', h', r, _, _, c⟩ := description_new_outcomes a e h wf is ws n zs cs es inp
  have n1 : a.iz ≠ none := by obtain ⟨i, _, hi, _⟩ := inp.iz; simp [hi]
  have n2 : a.wi ≠ none := by obtain ⟨i, _, hi, _⟩ := inp.wi; simp [hi]
  refine ⟨p, e', h', r, ?_, ?_⟩
  · rw [descDomain_iff n1 n2]
    rcases c with ⟨hp, _, hg, _⟩ | ⟨_, _, _, _, ⟨k, hk⟩, _⟩ | ⟨hp, h1, h2, h3, _⟩ | ⟨hp, h1, h2, h3, _⟩
    · subst hp
      constructor
      · intro hh; exact absurd rfl hh
      · rintro ⟨h1, h2, _⟩
        rcases hg with hg | hg
        · rw [h1] at hg; cases hg
        · rw [h2] at hg; cases hg
    · rw [ok k] at hk; cases hk
    · subst hp
      constructor
      · intro hh; exact absurd rfl hh
      · rintro ⟨_, _, h4⟩; exact absurd h4 h3
    · subst hp; simp [h1, h2, h3]
  · rintro hp rfl
    rcases c with ⟨_, _, _, he⟩ | ⟨_, _, _, _, ⟨k, hk⟩, _⟩ | ⟨_, _, _, _, _, he⟩ | ⟨hp', _⟩
    · rw [he]; rfl
    · rw [ok k] at hk; cases hk
    · rw [he]
      have : ∃ x, (checkWeight ws (some none)).2 = some x := by
        simp only [checkWeight]
        repeat' split
        all_goals exact ⟨_, rfl⟩
      obtain ⟨x, hx⟩ := this
      rw [hx]; rfl
    · rw [hp'] at hp; cases hp

/-- **C10.**  NULL composition arrays are rejected before anything is read. -/
theorem description_new_null_arrays (a : DescArgs α) (e : EArg) (h : Heap (Block α))
    (hn : a.iz = none ∨ a.wi = none) :
    (descriptionNew a e).run h = some ((none, e.set .invalidArgument), h) := by
  have : descRejects a = true := by
    simp only [descRejects, Bool.or_eq_true, decide_eq_true_eq]
    rcases hn with hn | hn <;> simp [hn]
  simp [descriptionNew, this]

/-- Finding (C10): a NULL profile is not checked and dereferenced. -/
theorem description_new_null_profile_ub (a : DescArgs α) (e : EArg) (h : Heap (Block α)) (hp : a.profile = none)
    (hr : descRejects a = false) (is : List Int) (ws : List α) (i w : Nat)
    (hi : a.iz = some i) (mi : h.mem i = some (.ints is)) (il : is.length = a.nelem)
    (hw : a.wi = some w) (mw : h.mem w = some (.doubles ws)) (wl : ws.length = a.nelem)
    (hz : is.any badZ = false) (wf : h.WF) (ok : AllocOk h) :
    (descriptionNew a e).run h = none := by
  have hload : (loadInts (α := α) a.iz a.nelem).run h = some (is, h) := by
    simp [loadInts, run_bind, hi, run_load, mi, ← il]
  simp only [descriptionNew, hr, Bool.false_eq_true, if_false]
  rw [run_bind_some hload]
  have w0 := lt_next_of_live wf mw
  have wi1 : w ≠ h.next := by omega
  have wi2 : ∀ k, w ≠ h.next + k := by intro k; omega
  simp [hz, run_bind, run_malloc, run_load, run_store, storeInts, storeArr, loadArr, hw, mw, ok _,
      upd, Nat.add_assoc, wi1, wi2, il, ← wl, checkWeight_length, descProfilePart, loadProfile, hp]

/-- **C11 (the half that holds).**  If `polycap_description_new` returns NULL, an error is reported
(whatever failed, including memory). -/
theorem description_null_reports (a : DescArgs α) (h : Heap (Block α)) (wf : h.WF)
    (is : List Int) (ws : List α) (n : Nat) (zs cs es : List α) (inp : DescInput h a is ws n zs cs es)
    {e' h'} (r : (descriptionNew a (some none)).run h = some ((none, e'), h')) : ∃ c, e' = some (some c) := by
  obtain ⟨p, e'', h'', r', _, _, c⟩ := description_new_outcomes a (some none) h wf is ws n zs cs es inp
  rw [r] at r'
  simp only [Option.some.injEq, Prod.mk.injEq] at r'
  obtain ⟨⟨rfl, rfl⟩, rfl⟩ := r'
  have hx : ∃ x, (checkWeight ws (some none)).2 = some x := by
    simp only [checkWeight]
    repeat' split
    all_goals exact ⟨_, rfl⟩
  obtain ⟨x, hx⟩ := hx
  rcases c with ⟨_, _, _, he⟩ | ⟨_, _, _, _, _, he | he⟩ | ⟨_, _, _, _, _, he⟩ | ⟨hp', _⟩
  · exact ⟨_, he⟩
  · exact ⟨_, he⟩
  · rw [hx] at he
    cases x with
    | none => exact ⟨_, he⟩
    | some d => exact ⟨_, he⟩
  · rw [hx] at he; exact ⟨_, he⟩
  · cases hp'

/-- **C11, partial**: with an acceptable composition (one that `check_weight` does not complain about),
the NULL result and the error slot are equivalent ways of detecting failure. -/
theorem description_null_iff_error_partial (a : DescArgs α) (h : Heap (Block α)) (wf : h.WF)
    (is : List Int) (ws : List α) (n : Nat) (zs cs es : List α) (inp : DescInput h a is ws n zs cs es)
    (hw : (checkWeight ws (some none)).2 = some none) :
    ∃ p e' h', (descriptionNew a (some none)).run h = some ((p, e'), h') ∧ (p = none ↔ e' ≠ some none) := by
  obtain ⟨p, e', h', r, _, _, c⟩ := description_new_outcomes a (some none) h wf is ws n zs cs es inp
  refine ⟨p, e', h', r, ?_, ?_⟩
  · rintro rfl
    obtain ⟨c, hc⟩ := description_null_reports a h wf is ws n zs cs es inp r
    rw [hc]; simp
  · intro he
    rcases c with ⟨hp, _⟩ | ⟨hp, _⟩ | ⟨hp, _⟩ | ⟨_, _, _, _, he', _⟩
    · exact hp
    · exact hp
    · exact hp
    · rw [he', hw] at he; exact absurd rfl he

/-- Finding (C11): in the accepted domain, an unacceptable composition gives a non-NULL description *and*
an error. -/
theorem description_bad_weights_returned (a : DescArgs α) (h : Heap (Block α)) (wf : h.WF) (ok : AllocOk h)
    (is : List Int) (ws : List α) (n : Nat) (zs cs es : List α) (inp : DescInput h a is ws n zs cs es)
    (dom : DescDomain a is (listProfile n zs cs es))
    (hw : (checkWeight ws (some none)).2 = some (some .invalidArgument)) :
    ∃ p h', (descriptionNew a (some none)).run h = some ((some p, some (some .invalidArgument)), h') := by
  obtain ⟨p, e', h', r, _, _, c⟩ := description_new_outcomes a (some none) h wf is ws n zs cs es inp
  have n1 : a.iz ≠ none := by obtain ⟨i, _, hi, _⟩ := inp.iz; simp [hi]
  have n2 : a.wi ≠ none := by obtain ⟨i, _, hi, _⟩ := inp.wi; simp [hi]
  obtain ⟨d1, d2, d3⟩ := (descDomain_iff n1 n2).mp dom
  rcases c with ⟨_, _, hg | hg, _⟩ | ⟨_, _, _, _, ⟨k, hk⟩, _⟩ | ⟨_, _, _, h3, _⟩ | ⟨hp, _, _, _, he, _⟩
  · rw [d1] at hg; cases hg
  · rw [d2] at hg; cases hg
  · rw [ok k] at hk; cases hk
  · exact absurd d3 h3
  · refine ⟨h.next, h', ?_⟩
    rw [r, hp, he, hw]

/-- **C07 (description), partial**: whatever allocations fail, a NULL result leaves the memory as it was,
unless the profile was found infeasible (see `description_new_leaks`); no undefined behaviour occurs. -/
theorem description_new_clean_partial (a : DescArgs α) (e : EArg) (h : Heap (Block α)) (wf : h.WF)
    (is : List Int) (ws : List α) (n : Nat) (zs cs es : List α) (inp : DescInput h a is ws n zs cs es)
    (hv : validate (listProfile n zs cs es) a.n_cap = 1) :
    ∃ p e' h', (descriptionNew a e).run h = some ((p, e'), h') ∧
      ((p = none ∧ h'.mem = h.mem) ∨
       (p = some h.next ∧ Extends h h' [h.next, h.next+1, h.next+2, h.next+3, h.next+4, h.next+5, h.next+6])) := by
  obtain ⟨p, e', h', r, _, _, c⟩ := description_new_outcomes a e h wf is ws n zs cs es inp
  refine ⟨p, e', h', r, ?_⟩
  rcases c with ⟨hp, hm, _⟩ | ⟨hp, hm, _⟩ | ⟨_, _, _, h3, _⟩ | ⟨hp, _, _, _, _, hm⟩
  · exact Or.inl ⟨hp, hm⟩
  · exact Or.inl ⟨hp, hm⟩
  · exact absurd hv h3
  · refine Or.inr ⟨hp, ?_, ?_⟩
    · intro x hx
      simp only [List.mem_cons, List.not_mem_nil, or_false, not_or] at hx
      rw [hm]; simp [upd, hx]
    · intro x hx
      simp only [List.mem_cons, List.not_mem_nil, or_false] at hx
      refine ⟨wf x (by omega), ?_⟩
      rw [hm]
      rcases hx with rfl | rfl | rfl | rfl | rfl | rfl | rfl <;> simp [upd]

/-- Finding (C07): when the profile is infeasible (and memory suffices), exactly one block — the copy of
the external radii — is never released. -/
theorem description_new_leaks (a : DescArgs α) (e : EArg) (h : Heap (Block α)) (wf : h.WF) (ok : AllocOk h)
    (is : List Int) (ws : List α) (n : Nat) (zs cs es : List α) (inp : DescInput h a is ws n zs cs es)
    (hr : descRejects a = false) (hz : is.any badZ = false)
    (hv : validate (listProfile n zs cs es) a.n_cap ≠ 1) :
    ∃ e' h', (descriptionNew a e).run h = some ((none, e'), h') ∧ Extends h h' [h.next + 6] := by
  obtain ⟨p, e', h', r, _, _, c⟩ := description_new_outcomes a e h wf is ws n zs cs es inp
  rcases c with ⟨_, _, hg | hg, _⟩ | ⟨_, _, _, _, ⟨k, hk⟩, _⟩ | ⟨hp, _, _, _, hm, _⟩ | ⟨_, _, _, h3, _⟩
  · rw [hr] at hg; cases hg
  · rw [hz] at hg; cases hg
  · rw [ok k] at hk; cases hk
  · subst hp
    refine ⟨e', h', r, ?_, ?_⟩
    · intro x hx; simp at hx; rw [hm]; simp [upd, hx]
    · intro x hx; simp at hx; subst hx; rw [hm]; exact ⟨wf _ (by omega), by simp [upd]⟩
  · exact absurd h3 hv

/-- **C14.**  A successful call returns an object that reads back as the given values (composition after
normalisation, profile arrays element by element), made of new blocks only (nothing that existed before
is touched), and its reading depends on these new blocks only: whatever happens to the caller's arrays
and profile later (any heap `g` that agrees on the new blocks), the description reads the same. -/
theorem description_reads_back (a : DescArgs α) (e e' : EArg) (h h' : Heap (Block α)) (wf : h.WF) (b : Nat)
    (is : List Int) (ws : List α) (n : Nat) (zs cs es : List α) (inp : DescInput h a is ws n zs cs es)
    (r : (descriptionNew a e).run h = some ((some b, e'), h')) :
    let view : DescView α := ⟨a.sig_rough, a.n_cap, openArea (cs.getD 0 (lit 0)) (es.getD 0 (lit 0)) a.n_cap,
      a.nelem, is, (checkWeight ws e).1, a.density, (n, zs, cs, es)⟩
    readDescr h' (some b) = some view ∧
    (∀ x, x < h.next → h'.mem x = h.mem x) ∧
    (∀ g : Heap (Block α), (∀ x, h.next ≤ x → x < h'.next → g.mem x = h'.mem x) → readDescr g (some b) = some view) := by
  obtain ⟨p, e'', h'', r', wf', _, c⟩ := description_new_outcomes a e h wf is ws n zs cs es inp
  rw [r] at r'
  simp only [Option.some.injEq, Prod.mk.injEq] at r'
  obtain ⟨⟨rfl, rfl⟩, rfl⟩ := r'
  rcases c with ⟨hp, _⟩ | ⟨hp, _⟩ | ⟨hp, _⟩ | ⟨hp, _, _, _, he, hm⟩
  · cases hp
  · cases hp
  · cases hp
  · simp only [Option.some.injEq] at hp
    subst hp
    have key : ∀ g : Heap (Block α), (∀ x, h.next ≤ x → x < h'.next → g.mem x = h'.mem x) →
        readDescr g (some h.next) = some ⟨a.sig_rough, a.n_cap, openArea (cs.getD 0 (lit 0)) (es.getD 0 (lit 0)) a.n_cap,
          a.nelem, is, (checkWeight ws e).1, a.density, (n, zs, cs, es)⟩ := by
      intro g hg
      have live : ∀ k, k ≤ 6 → h'.mem (h.next + k) ≠ none → g.mem (h.next + k) = h'.mem (h.next + k) := by
        intro k _ hk
        refine hg _ (by omega) ?_
        by_contra hc
        exact hk (wf' _ (by omega))
      have g0 := live 0 (by omega) (by rw [hm]; simp [upd])
      have g1 := live 1 (by omega) (by rw [hm]; simp [upd])
      have g2 := live 2 (by omega) (by rw [hm]; simp [upd])
      have g3 := live 3 (by omega) (by rw [hm]; simp [upd])
      have g4 := live 4 (by omega) (by rw [hm]; simp [upd])
      have g5 := live 5 (by omega) (by rw [hm]; simp [upd])
      have g6 := live 6 (by omega) (by rw [hm]; simp [upd])
      rw [hm] at g0 g1 g2 g3 g4 g5 g6
      simp [upd] at g0 g1 g2 g3 g4 g5 g6
      simp [readDescr, g0, g1, g2, readProfile, g3, g4, g5, g6]
    refine ⟨key h' (fun _ _ _ => rfl), ?_, key⟩
    intro x hx
    rw [hm]; simp only [upd]
    rw [if_neg (by omega), if_neg (by omega), if_neg (by omega), if_neg (by omega), if_neg (by omega),
      if_neg (by omega), if_neg (by omega)]

/-- **C47 (description).**  Freeing a freshly created description releases every block it owns exactly
once: memory is as before the construction.  NULL is accepted. -/
theorem description_new_free_identity (a : DescArgs α) (e e' : EArg) (h h' : Heap (Block α)) (wf : h.WF) (b : Nat)
    (is : List Int) (ws : List α) (n : Nat) (zs cs es : List α) (inp : DescInput h a is ws n zs cs es)
    (r : (descriptionNew a e).run h = some ((some b, e'), h')) :
    ∃ h'', (descriptionFree (some b)).run h' = some ((), h'') ∧ h''.mem = h.mem := by
  obtain ⟨p, e'', h'', r', wf', _, c⟩ := description_new_outcomes a e h wf is ws n zs cs es inp
  rw [r] at r'
  simp only [Option.some.injEq, Prod.mk.injEq] at r'
  obtain ⟨⟨rfl, rfl⟩, rfl⟩ := r'
  rcases c with ⟨hp, _⟩ | ⟨hp, _⟩ | ⟨hp, _⟩ | ⟨hp, _, _, _, he, hm⟩
  · cases hp
  · cases hp
  · cases hp
  · simp only [Option.some.injEq] at hp
    subst hp
    have u0 := wf h.next (le_refl _)
    have u1 := wf (h.next+1) (by omega)
    have u2 := wf (h.next+2) (by omega)
    have u3 := wf (h.next+3) (by omega)
    have u4 := wf (h.next+4) (by omega)
    have u5 := wf (h.next+5) (by omega)
    have u6 := wf (h.next+6) (by omega)
    refine ⟨{ h' with mem := h.mem }, ?_, rfl⟩
    simp [descriptionFree, profileFree, loadProfile, run_bind, run_load, run_free, hm, upd]
    clear wf wf' inp; funext x; simp only [upd]; grind

theorem description_free_null (h : Heap (Block α)) : (descriptionFree none).run h = some ((), h) := rfl

/-! ## Open area (C13) -/

/-- **C13.**  The capillary number that enters the open area is the hexagonal number
`3N(N+1)+1` of the shell count `N`, whatever `n_cap` was given. -/
theorem nCapFull_hexagonal (n_cap : ℤ) :
    nCapFull (α := ℝ) n_cap = 3 * (nShells (α := ℝ) n_cap) * (nShells (α := ℝ) n_cap + 1) + 1 := by
  simp only [nCapFull, real_div, real_add, real_mul, real_lit, real_ofInt]
  push_cast; ring

/-- **C13.**  In particular for a full stacking it is `n_cap` itself. -/
theorem nCapFull_of_full (N : ℕ) : nCapFull (α := ℝ) (3 * N * (N + 1) + 1) = 3 * N * (N + 1) + 1 := by
  rw [nCapFull_hexagonal, nShells_of_full_stacking]; norm_cast

/-- **C13.**  The open area is the area of these capillaries over the area `3·sin(π/3)·ext²` of the
hexagon. -/
theorem openArea_spec (cap ext : ℝ) (n_cap : ℤ) :
    openArea cap ext n_cap =
      (3 * (nShells (α := ℝ) n_cap) * (nShells (α := ℝ) n_cap + 1) + 1 : ℝ) * (mpi * cap ^ 2) /
        (3 * Real.sin (mpi / 3) * ext ^ 2) := by
  simp only [openArea, nCapFull_hexagonal, real_div, real_mul, real_lit, real_sin]
  push_cast; ring_nf

/-- Finding (C51): the accepted overlapping stacking of `validate_accepts_overlap` has an open area above
100 %. -/
theorem openArea_above_one : 1 < openArea (0.4 : ℝ) 1 7 := by
  rw [openArea_spec, nShells_7]
  have hp : (3:ℝ) < mpi := by simp only [mpi, real_lit]; norm_num
  have hp' : (mpi:ℝ) < 32/10 := by simp only [mpi, real_lit]; norm_num
  have hs : 0 < Real.sin (mpi / 3) :=
    Real.sin_pos_of_pos_of_lt_pi (by linarith) (by have := Real.two_le_pi; linarith)
  have hs1 : Real.sin (mpi / 3) ≤ 1 := Real.sin_le_one _
  rw [lt_div_iff₀ (by positivity)]
  push_cast
  nlinarith

/-! ## A concrete call meeting the hypotheses -/

/-- memory with a profile of three points and a composition of two elements -/
noncomputable def exHeap (ws : List ℝ) : Heap (Block ℝ) :=
  { mem := fun a => match a with
      | 0 => some (.profile 2 (some 1) (some 2) (some 3))
      | 1 => some (.doubles [0, 1, 2])
      | 2 => some (.doubles [0.1, 0.1, 0.1])
      | 3 => some (.doubles [1, 0.9, 0.8])
      | 4 => some (.ints [8, 14])
      | 5 => some (.doubles ws)
      | _ => none
    next := 6
    orc := fun _ => true }

noncomputable def exArgs : DescArgs ℝ := ⟨some 0, 5, 2, 2, some 4, some 5, 2.23⟩

theorem exInput (ws : List ℝ) (hl : ws.length = 2) :
    DescInput (exHeap ws) exArgs [8, 14] ws 2 [0, 1, 2] [0.1, 0.1, 0.1] [1, 0.9, 0.8] where
  iz := ⟨4, [], rfl, rfl⟩
  wi := ⟨5, [], rfl, by simp [exHeap]⟩
  il := rfl
  wl := hl
  prof := rfl
  zl := rfl
  cl := rfl
  el := rfl

theorem exHeap_wf (ws : List ℝ) : (exHeap ws).WF ∧ AllocOk (exHeap ws) := by
  constructor
  · intro a ha
    have : 6 ≤ a := ha
    match a, this with
    | (k + 6), _ => rfl
  · intro n; rfl

theorem exDomain : DescDomain exArgs [8, 14] (listProfile 2 [0, 1, 2] [0.1, 0.1, 0.1] [(1:ℝ), 0.9, 0.8]) where
  rough := by simp [exArgs]
  ncap := by decide
  nelem := by decide
  density := by simp [exArgs]; norm_num
  z := by intro z hz; simp at hz; omega
  profile := by
    apply ((validate_mono_iff _ 2 (by norm_num) (by norm_num)).1).mpr
    intro i hi
    simp only [listProfile] at hi
    have : i = 0 ∨ i = 1 ∨ i = 2 := by omega
    rcases this with rfl | rfl | rfl <;> norm_num [listProfile]

/-- Finding (C11), concrete: weights 0.5 + 0.4 give a description and an error at the same time. -/
theorem description_null_iff_error_false :
    ∃ (h : Heap (Block ℝ)) (a : DescArgs ℝ) (p : Nat) (h' : Heap (Block ℝ)),
      (descriptionNew a (some none)).run h = some ((some p, some (some .invalidArgument)), h') := by
  obtain ⟨p, h', r⟩ := description_bad_weights_returned exArgs (exHeap [0.5, 0.4]) (exHeap_wf _).1 (exHeap_wf _).2
    [8, 14] [0.5, 0.4] 2 _ _ _ (exInput _ rfl) exDomain (by
      simp only [checkWeight, sumFrom, real_add, real_lit, gt, real_lt, real_beq]
      norm_num)
  exact ⟨_, _, p, h', r⟩

end Polycap
