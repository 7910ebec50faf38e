import Verif.Session
import Verif.Props.SourceNew

/-!
# C61: histories of API calls

Specification: the same calls on a machine without memory, where every object is simply its value.  A history is *legal* if it only uses
objects that were created and not yet freed, and uses a photon (launch) only while the description or source it came from still exists and a
result (write) only while its source still exists.
-/
namespace Polycap.Sess
open CNum CM Mem
variable {α : Type} [CNum α]
set_option linter.unusedSectionVars false
set_option linter.unusedTactic false
set_option linter.unreachableTactic false
set_option linter.unnecessarySeqFocus false

/-! ## Specification: values only -/

/-- profile value: interval count, `z`, `cap`, `ext` -/
abbrev PVal (α : Type) := Nat × List α × List α × List α

/-- where a photon's optic lives: in a description object of the client or inside a source -/
inductive Owner where
  | ofDescr (i : Nat)
  | ofSrc (i : Nat)

inductive AVar (α : Type) where
  | null
  | prof (v : PVal α)
  | descr (v : DescView α)
  | src (v : SrcView α)
  | photon (o : Owner) (P : Photon α)
  | result (src : Nat) (te : TE α)
  | gone

/-- variables, number of simulations, number of descriptions refused because of an infeasible profile -/
structure ASt (α : Type) where
  vars : List (AVar α)
  sims : Nat
  refused : Nat

def _root_.Polycap.DescView.optic (v : DescView α) : Descr α :=
  ⟨v.sig_rough, v.n_cap, v.iz, v.wi, v.density, listProfile v.profile.1 v.profile.2.1 v.profile.2.2.1 v.profile.2.2.2⟩

def _root_.Polycap.SrcView.pars (v : SrcView α) : Src α :=
  ⟨v.d_source, v.src_x, v.src_y, v.src_sigx, v.src_sigy, v.src_shiftx, v.src_shifty, v.hor_pol, v.energies⟩

def ASt.push (s : ASt α) (v : AVar α) : ASt α := { s with vars := s.vars ++ [v] }

def pick (fld : ProfField) (v : PVal α) : List α :=
  match fld with | .ext => v.2.2.2 | .cap => v.2.2.1 | .z => v.2.1

/-- the optic a photon refers to, as long as its owner exists -/
def ASt.optic (s : ASt α) : Owner → Option (Descr α)
  | .ofDescr i => match s.vars[i]? with
    | some (.descr v) => some v.optic
    | _ => none
  | .ofSrc i => match s.vars[i]? with
    | some (.src v) => some v.descr.optic
    | _ => none

def badArg : EArg := some (some .invalidArgument)

/-- description arguments (pointers do not matter to `DescDomain`) -/
def dArgs (sig : α) (n_cap : Int) (comp : List (Int × α)) (rho : α) : DescArgs α := ⟨none, sig, n_cap, comp.length, some 0, some 0, rho⟩

def sArgs (a : SrcPars α) : SrcArgs α :=
  ⟨none, a.d_source, a.src_x, a.src_y, a.src_sigx, a.src_sigy, a.src_shiftx, a.src_shifty, a.hor_pol, a.energies.length, none⟩

open Classical in
/-- One call on the value machine; `stale` = the history is not legal. -/
noncomputable def astep (fit : Fit α) (lib : Xray α) (sim : Nat → SimArgs α → Option (TE α)) (op : Op α) (s : ASt α) : Res (ASt α) α :=
  match op with
  | .newProfile a =>
    match profRejects a, profExt fit a with
    | false, some f => .next (s.push (.prof (profNmax, arr profNmax (profZ a), arr profNmax (profCap a), arr profNmax f))) (.made true (some none))
    | _, _ => .next (s.push .null) (.made false badArg)
  | .newProfileFromArrays nid ext cap z =>
    if nid ≤ 1 then .next (s.push .null) (.made false badArg)
    else if nid.toNat + 1 ≤ ext.length ∧ nid.toNat + 1 ≤ cap.length ∧ nid.toNat + 1 ≤ z.length then
      .next (s.push (.prof (nid.toNat, z.take (nid.toNat + 1), cap.take (nid.toNat + 1), ext.take (nid.toNat + 1)))) (.made true (some none))
    else .stale
  | .getArray i fld =>
    match s.vars[i]? with
    | some .null => .next s .none
    | some (.prof v) => .next s (.array v.1 (pick fld v))
    | _ => .stale
  | .newDescription i sig n_cap comp rho =>
    match s.vars[i]? with
    | some (.prof v) =>
      let a := dArgs sig n_cap comp rho
      let p := listProfile v.1 v.2.1 v.2.2.1 v.2.2.2
      if DescDomain a (comp.map (·.1)) p then
        .next (s.push (.descr ⟨sig, n_cap, openArea (v.2.2.1.getD 0 (lit 0)) (v.2.2.2.getD 0 (lit 0)) n_cap, comp.length, comp.map (·.1),
          (checkWeight (comp.map (·.2)) (some none)).1, rho, v⟩)) (.made true (checkWeight (comp.map (·.2)) (some none)).2)
      else if descRejects a = false ∧ (comp.map (·.1)).any badZ = false then
        .next { s.push .null with refused := s.refused + 1 } (.made false badArg)
      else .next (s.push .null) (.made false badArg)
    | _ => .stale
  | .getDescrArray i fld =>
    match s.vars[i]? with
    | some (.descr v) => .next s (.array v.profile.1 (pick fld v.profile))
    | _ => .stale
  | .newSource i a =>
    match s.vars[i]? with
    | some .null => .next (s.push .null) (.made false badArg)
    | some (.descr v) =>
      if SrcDomain (sArgs a) v a.energies then
        .next (s.push (.src ⟨copyOf v, a.d_source, a.src_x, a.src_y, a.src_sigx, a.src_sigy, a.src_shiftx, a.src_shifty, a.hor_pol, a.energies⟩))
          (.made true (some none))
      else .next (s.push .null) (.made false badArg)
    | _ => .stale
  | .newPhoton i c d E =>
    match s.vars[i]? with
    | some .null => .next (s.push .null) (.made false badArg)
    | some (.descr _) =>
      match photonNew c d E with
      | none => .next (s.push .null) (.made false badArg)
      | some P => .next (s.push (.photon (.ofDescr i) P)) (.made true (some none))
    | _ => .stale
  | .getPhoton i u fuel n =>
    match s.vars[i]? with
    | some .null => .next (s.push .null) (.made false badArg)
    | some (.src v) =>
      match getPhoton v.pars v.descr.optic u fuel n with
      | .ok x => .next (s.push (.photon (.ofSrc i) x.1.photon)) (.made true (some none))
      | _ => .inner
    | _ => .stale
  | .launch i es leak fuel k =>
    match s.vars[i]? with
    | some .null => .next s (.launched (-1) .untouched Option.none)
    | some (.photon o P) =>
      if es.isEmpty || es.any energyBad then .next s (.launched (-1) .untouched (some P))
      else match s.optic o with
      | none => .stale
      | some D =>
        match launch lib (some D) leak fuel k (some P) (some es) true with
        | .ok (rv, w, some P') => .next { s with vars := s.vars.set i (.photon o P') } (.launched rv w (some P'))
        | _ => .inner
    | _ => .stale
  | .simulate i mt np leak =>
    match s.vars[i]? with
    | some .null => .next (s.push .null) (.made false badArg)
    | some (.src v) =>
      let a : SimArgs α := ⟨some (v.pars, some v.descr.optic), false, mt, np, leak, false⟩
      if simRejects a then .next (s.push .null) (.made false badArg)
      else match sim s.sims a with
        | none => .inner
        | some te => .next (ASt.push { s with sims := s.sims + 1, vars := s.vars.set i (.src { v with descr := { v.descr with open_area := te.openArea } }) }
            (.result i te)) (.made true (some none))
    | _ => .stale
  | .readResult i =>
    match s.vars[i]? with
    | some .null => .next s (.failed badArg)
    | some (.result _ te) => .next s (.got te)
    | _ => .stale
  | .write i =>
    match s.vars[i]? with
    | some .null => .next s (.failed badArg)
    | some (.result j te) =>
      match s.vars[j]? with
      | some (.src v) => .next s (.wrote te v.pars v.descr.optic v.descr.open_area)
      | _ => .stale
    | _ => .stale
  | .free i =>
    match s.vars[i]? with
    | some .null => .next s .none
    | some .gone => .stale
    | none => .stale
    | some _ => .next { s with vars := s.vars.set i .gone } .none

def astart : ASt α := ⟨[], 0, 0⟩

/-! ## Objects and the blocks they consist of -/

/-- a profile object at `a` with value `v`, made of exactly the blocks `f` -/
def OwnsProf (h : Heap (Block α)) (a : Nat) (v : PVal α) (f : List Nat) : Prop :=
  ∃ z c e, h.mem a = some (.profile v.1 (some z) (some c) (some e)) ∧ h.mem z = some (.doubles v.2.1) ∧ h.mem c = some (.doubles v.2.2.1) ∧
    h.mem e = some (.doubles v.2.2.2) ∧ v.2.1.length = v.1 + 1 ∧ v.2.2.1.length = v.1 + 1 ∧ v.2.2.2.length = v.1 + 1 ∧
    f = [a, z, c, e] ∧ f.Nodup

def OwnsDescr (h : Heap (Block α)) (a : Nat) (v : DescView α) (f : List Nat) : Prop :=
  ∃ i w p g, h.mem a = some (.descr v.sig_rough v.n_cap v.open_area v.nelem (some i) (some w) v.density (some p)) ∧ h.mem i = some (.ints v.iz) ∧
    h.mem w = some (.doubles v.wi) ∧ v.iz.length = v.nelem ∧ v.wi.length = v.nelem ∧ OwnsProf h p v.profile g ∧ f = a :: i :: w :: g ∧ f.Nodup

def OwnsSrc (h : Heap (Block α)) (a : Nat) (v : SrcView α) (d : Nat) (f : List Nat) : Prop :=
  ∃ r en g, h.mem a = some (.source (some d) (some r) v.d_source v.src_x v.src_y v.src_sigx v.src_sigy v.src_shiftx v.src_shifty v.hor_pol
      v.energies.length (some en)) ∧ h.mem r = some .rng ∧ h.mem en = some (.doubles v.energies) ∧ OwnsDescr h d v.descr g ∧
    f = a :: r :: en :: g ∧ f.Nodup

theorem OwnsProf.frame {h h' : Heap (Block α)} {a v f} (o : OwnsProf h a v f) (ag : ∀ x ∈ f, h'.mem x = h.mem x) : OwnsProf h' a v f := by
  obtain ⟨z, c, e, m1, m2, m3, m4, l1, l2, l3, rfl, nd⟩ := o
  refine ⟨z, c, e, ?_, ?_, ?_, ?_, l1, l2, l3, rfl, nd⟩
  · rw [ag _ (by simp), m1]
  · rw [ag _ (by simp), m2]
  · rw [ag _ (by simp), m3]
  · rw [ag _ (by simp), m4]

theorem OwnsDescr.frame {h h' : Heap (Block α)} {a v f} (o : OwnsDescr h a v f) (ag : ∀ x ∈ f, h'.mem x = h.mem x) : OwnsDescr h' a v f := by
  obtain ⟨i, w, p, g, m1, m2, m3, l1, l2, op, rfl, nd⟩ := o
  refine ⟨i, w, p, g, ?_, ?_, ?_, l1, l2, op.frame (fun x hx => ag x (by simp [hx])), rfl, nd⟩
  · rw [ag _ (by simp), m1]
  · rw [ag _ (by simp), m2]
  · rw [ag _ (by simp), m3]

theorem OwnsSrc.frame {h h' : Heap (Block α)} {a v d f} (o : OwnsSrc h a v d f) (ag : ∀ x ∈ f, h'.mem x = h.mem x) : OwnsSrc h' a v d f := by
  obtain ⟨r, en, g, m1, m2, m3, od, rfl, nd⟩ := o
  refine ⟨r, en, g, ?_, ?_, ?_, od.frame (fun x hx => ag x (by simp [hx])), rfl, nd⟩
  · rw [ag _ (by simp), m1]
  · rw [ag _ (by simp), m2]
  · rw [ag _ (by simp), m3]

theorem OwnsProf.live {h : Heap (Block α)} {a v f} (o : OwnsProf h a v f) {x} (hx : x ∈ f) : h.mem x ≠ none := by
  obtain ⟨z, c, e, m1, m2, m3, m4, _, _, _, rfl, _⟩ := o
  simp at hx
  rcases hx with rfl | rfl | rfl | rfl <;> simp [*]

theorem OwnsDescr.live {h : Heap (Block α)} {a v f} (o : OwnsDescr h a v f) {x} (hx : x ∈ f) : h.mem x ≠ none := by
  obtain ⟨i, w, p, g, m1, m2, m3, _, _, op, rfl, _⟩ := o
  simp at hx
  rcases hx with rfl | rfl | rfl | hx
  · simp [*]
  · simp [*]
  · simp [*]
  · exact op.live hx

theorem OwnsSrc.live {h : Heap (Block α)} {a v d f} (o : OwnsSrc h a v d f) {x} (hx : x ∈ f) : h.mem x ≠ none := by
  obtain ⟨r, en, g, m1, m2, m3, od, rfl, _⟩ := o
  simp at hx
  rcases hx with rfl | rfl | rfl | hx
  · simp [*]
  · simp [*]
  · simp [*]
  · exact od.live hx

/-! ### Reading and freeing owned objects -/

/-- the heap without the blocks `f` -/
def without (h : Heap (Block α)) (f : List Nat) : Heap (Block α) := { h with mem := fun x => if x ∈ f then none else h.mem x }

theorem load_owned {h : Heap (Block α)} {a : Nat} {b : Block α} (e : h.mem a = some b) : (load (some a)).run h = some (b, h) := by
  rw [run_load, e]

theorem free_without {h : Heap (Block α)} {a : Nat} (ha : h.mem a ≠ none) : (CM.free (some a)).run h = some ((), without h [a]) := by
  obtain ⟨b, hb⟩ := Option.ne_none_iff_exists'.mp ha
  rw [run_free_ok hb]
  simp only [without, List.mem_singleton]
  rfl

theorem without_without (h : Heap (Block α)) (f g : List Nat) : without (without h f) g = without h (f ++ g) := by
  simp only [without, List.mem_append]
  congr 1
  funext x
  by_cases h1 : x ∈ f <;> by_cases h2 : x ∈ g <;> simp [h1, h2]

theorem without_congr (h : Heap (Block α)) {f g : List Nat} (e : ∀ x, x ∈ f ↔ x ∈ g) : without h f = without h g := by
  simp only [without]
  congr 1
  funext x
  simp [e x]

theorem without_mem (h : Heap (Block α)) {f : List Nat} {x : Nat} (hx : x ∉ f) : (without h f).mem x = h.mem x := by
  simp [without, hx]

theorem OwnsProf.free {h : Heap (Block α)} {a v f} (o : OwnsProf h a v f) : (profileFree (some a)).run h = some ((), without h f) := by
  obtain ⟨z, c, e, m1, m2, m3, m4, _, _, _, rfl, nd⟩ := o
  simp only [List.nodup_cons, List.mem_cons, List.not_mem_nil, or_false, not_or, List.nodup_nil, and_true, not_false_eq_true] at nd
  obtain ⟨⟨n1, n2, n3⟩, ⟨n4, n5⟩, n6⟩ := nd
  have l : (loadProfile (α := α) (some a)).run h = some ((v.1, some z, some c, some e), h) := by
    simp [loadProfile, run_bind, run_load, m1]
  unfold profileFree
  rw [if_neg (by simp), run_bind_some l]
  dsimp only
  rw [run_bind_some (free_without (by simp [m2])), run_bind_some (free_without (by rw [without_mem _ (by simp; tauto)]; simp [m3])),
    run_bind_some (free_without (by rw [without_mem _ (by simp; tauto), without_mem _ (by simp; tauto)]; simp [m4])),
    free_without (by rw [without_mem _ (by simp; tauto), without_mem _ (by simp; tauto), without_mem _ (by simp; tauto)]; simp [m1])]
  simp only [without_without]
  rw [without_congr h (g := [a, z, c, e]) (by intro x; simp; tauto)]

theorem OwnsDescr.free {h : Heap (Block α)} {a v f} (o : OwnsDescr h a v f) : (descriptionFree (some a)).run h = some ((), without h f) := by
  obtain ⟨i, w, p, g, m1, m2, m3, _, _, op, rfl, nd⟩ := o
  simp only [List.nodup_cons, List.mem_cons, not_or] at nd
  obtain ⟨⟨n1, n2, n3⟩, ⟨n4, n5⟩, n6, n7⟩ := nd
  have l := load_owned m1
  unfold descriptionFree
  rw [if_neg (by simp), run_bind_some l]
  dsimp only
  rw [run_bind_some op.free, run_bind_some (free_without (by rw [without_mem _ n5]; simp [m2])),
    run_bind_some (free_without (by rw [without_mem _ (by simp; tauto), without_mem _ n6]; simp [m3])),
    free_without (by rw [without_mem _ (by simp; tauto), without_mem _ (by simp; tauto), without_mem _ n3]; simp [m1])]
  simp only [without_without]
  rw [without_congr h (g := a :: i :: w :: g) (by intro x; simp; tauto)]

theorem OwnsSrc.free {h : Heap (Block α)} {a v d f} (o : OwnsSrc h a v d f) : (sourceFree (some a)).run h = some ((), without h f) := by
  obtain ⟨r, en, g, m1, m2, m3, od, rfl, nd⟩ := o
  simp only [List.nodup_cons, List.mem_cons, not_or] at nd
  obtain ⟨⟨n1, n2, n3⟩, ⟨n4, n5⟩, n6, n7⟩ := nd
  have l := load_owned m1
  unfold sourceFree
  rw [if_neg (by simp), run_bind_some l]
  dsimp only
  rw [run_bind_some od.free]
  unfold rngFree
  rw [if_neg (by simp), run_bind_some (free_without (by rw [without_mem _ n5]; simp [m2])),
    run_bind_some (free_without (by rw [without_mem _ (by simp; tauto), without_mem _ n6]; simp [m3])),
    free_without (by rw [without_mem _ (by simp; tauto), without_mem _ (by simp; tauto), without_mem _ n3]; simp [m1])]
  simp only [without_without]
  rw [without_congr h (g := a :: r :: en :: g) (by intro x; simp; tauto)]

theorem OwnsProf.fetch {h : Heap (Block α)} {a v f} (o : OwnsProf h a v f) : (fetchProfile (some a)).run h = some (v, h) := by
  obtain ⟨z, c, e, m1, m2, m3, m4, l1, l2, l3, _⟩ := o
  obtain ⟨n, zs, cs, es⟩ := v
  simp only at m1 m2 m3 m4 l1 l2 l3
  simp [fetchProfile, loadProfile, loadArr, run_bind, run_load, m1, m2, m3, m4, l1, l2, l3]

theorem OwnsDescr.fetch {h : Heap (Block α)} {a v f} (o : OwnsDescr h a v f) :
    (fetchDescr (some a)).run h = some ((v.optic, v.open_area), h) := by
  obtain ⟨i, w, p, g, m1, m2, m3, l1, l2, op, _⟩ := o
  unfold fetchDescr
  rw [run_bind_some (load_owned m1)]
  dsimp only
  rw [run_bind_some (show (loadInts (α := α) (some i) v.nelem).run h = some (v.iz, h) by simp [loadInts, run_bind, run_load, m2, ← l1]),
    run_bind_some (show (loadArr (α := α) (some w) v.nelem).run h = some (v.wi, h) by simp [loadArr, run_bind, run_load, m3, ← l2]),
    run_bind_some op.fetch]
  rfl

theorem OwnsSrc.fetch {h : Heap (Block α)} {a v d f} (o : OwnsSrc h a v d f) :
    (fetchSource (some a)).run h = some ((v.pars, v.descr.optic, v.descr.open_area, some d), h) := by
  obtain ⟨r, en, g, m1, m2, m3, od, _⟩ := o
  unfold fetchSource
  rw [run_bind_some (load_owned m1)]
  dsimp only
  rw [run_bind_some (show (loadArr (α := α) (some en) v.energies.length).run h = some (v.energies, h) by
      simp [loadArr, run_bind, run_load, m3]),
    run_bind_some od.fetch]
  rfl

/-! ## Creating objects -/

/-- the allocator's answers are not changed, addresses only grow -/
def Good {A : Type} (x : CM (Block α) A) : Prop := ∀ h a h', x.run h = some (a, h') → h'.orc = h.orc ∧ h.next ≤ h'.next

theorem Good.pure {A : Type} (a : A) : Good (Pure.pure a : CM (Block α) A) := by
  intro h b h' e
  simp only [run_pure, Option.some.injEq, Prod.mk.injEq] at e
  obtain ⟨_, rfl⟩ := e
  exact ⟨rfl, le_refl _⟩

theorem Good.ub {A : Type} : Good (CM.ub : CM (Block α) A) := by
  intro h b h' e; cases e

theorem Good.bind {A B : Type} {x : CM (Block α) A} {f : A → CM (Block α) B} (gx : Good x) (gf : ∀ a, Good (f a)) : Good (x >>= f) := by
  intro h b h' e
  rw [run_bind] at e
  split at e
  · cases e
  · rename_i a h1 e1
    obtain ⟨o1, n1⟩ := gx _ _ _ e1
    obtain ⟨o2, n2⟩ := gf _ _ _ _ e
    exact ⟨o2.trans o1, n1.trans n2⟩

theorem Good.malloc (b : Block α) : Good (CM.malloc b) := by
  intro h a h' e
  rw [run_malloc] at e
  split at e <;> simp only [Option.some.injEq, Prod.mk.injEq] at e <;> obtain ⟨_, rfl⟩ := e <;> exact ⟨rfl, Nat.le_succ _⟩

theorem Good.free (p : Ptr) : Good (CM.free p : CM (Block α) Unit) := by
  intro h a h' e
  cases p with
  | none => simp at e; subst e; exact ⟨rfl, le_refl _⟩
  | some a =>
    rw [run_free] at e
    split at e
    · cases e
    · simp only [Option.some.injEq, Prod.mk.injEq, true_and] at e; subst e; exact ⟨rfl, le_refl _⟩

theorem Good.load (p : Ptr) : Good (CM.load p : CM (Block α) (Block α)) := by
  intro h a h' e
  cases p with
  | none => simp at e
  | some a =>
    rw [run_load] at e
    split at e
    · cases e
    · simp only [Option.some.injEq, Prod.mk.injEq] at e; obtain ⟨_, rfl⟩ := e; exact ⟨rfl, le_refl _⟩

theorem Good.store (p : Ptr) (b : Block α) : Good (CM.store p b) := by
  intro h a h' e
  cases p with
  | none => simp at e
  | some a =>
    rw [run_store] at e
    split at e
    · cases e
    · simp only [Option.some.injEq, Prod.mk.injEq, true_and] at e; subst e; exact ⟨rfl, le_refl _⟩

theorem Good.ite {A : Type} {c : Prop} [Decidable c] {x y : CM (Block α) A} (gx : Good x) (gy : Good y) : Good (if c then x else y) := by
  split
  · exact gx
  · exact gy

/-- solves `Good` goals about code made of the primitive operations -/
macro "good" : tactic => `(tactic| repeat' first
  | exact Good.pure _ | exact Good.ub | exact Good.malloc _ | exact Good.free _ | exact Good.load _ | exact Good.store _ _
  | assumption | apply Good.ite | (apply Good.bind; rotate_left; intro _; rotate_right) | split)

theorem good_storeArr (p : Ptr) (xs : List α) : Good (storeArr p xs) := by unfold storeArr; good
theorem good_storeInts (p : Ptr) (xs : List Int) : Good (storeInts (α := α) p xs) := by unfold storeInts; good
theorem good_loadArr (p : Ptr) (n : Nat) : Good (loadArr (α := α) p n) := by unfold loadArr; good
theorem good_loadInts (p : Ptr) (n : Nat) : Good (loadInts (α := α) p n) := by unfold loadInts; good
theorem good_loadProfile (p : Ptr) : Good (loadProfile (α := α) p) := by unfold loadProfile; good
theorem good_loadDescr (p : Ptr) : Good (loadDescr (α := α) p) := by unfold loadDescr; good

theorem good_profileFree (p : Ptr) : Good (profileFree (α := α) p) := by
  have := good_loadProfile (α := α)
  unfold profileFree; apply Good.ite (Good.pure _); apply Good.bind (this _); intro _; good

theorem good_descriptionFree (p : Ptr) : Good (descriptionFree (α := α) p) := by
  have := good_profileFree (α := α)
  unfold descriptionFree; apply Good.ite (Good.pure _); apply Good.bind (Good.load _); intro _
  split
  · apply Good.bind (this _); intro _; good
  · exact Good.ub

theorem good_rngFree (p : Ptr) : Good (rngFree (α := α) p) := by unfold rngFree; good

theorem good_sourceFree (p : Ptr) : Good (sourceFree (α := α) p) := by
  unfold sourceFree; apply Good.ite (Good.pure _); apply Good.bind (Good.load _); intro _
  split
  · apply Good.bind (good_descriptionFree _); intro _; apply Good.bind (good_rngFree _); intro _; good
  · exact Good.ub

theorem good_profileNew (fit : Fit α) (a : ProfArgs α) (e : EArg) : Good (profileNew fit a e) := by
  unfold profileNew
  repeat' first
    | exact Good.pure _ | exact Good.ub | exact Good.malloc _ | exact Good.free _ | exact Good.load _ | exact Good.store _ _
    | exact good_storeArr _ _ | apply Good.ite | (apply Good.bind; rotate_left; intro _; rotate_right) | split

theorem good_fromArrays (n : Int) (x y z : Ptr) (e : EArg) : Good (profileNewFromArrays (α := α) n x y z e) := by
  unfold profileNewFromArrays
  repeat' first
    | exact Good.pure _ | exact Good.ub | exact Good.malloc _ | exact Good.free _ | exact Good.load _ | exact Good.store _ _
    | exact good_storeArr _ _ | exact good_loadArr _ _ | apply Good.ite | (apply Good.bind; rotate_left; intro _; rotate_right) | split

theorem good_descriptionNew (a : DescArgs α) (e : EArg) : Good (descriptionNew a e) := by
  unfold descriptionNew descProfilePart
  repeat' first
    | exact Good.pure _ | exact Good.ub | exact Good.malloc _ | exact Good.free _ | exact Good.load _ | exact Good.store _ _
    | exact good_storeArr _ _ | exact good_loadArr _ _ | exact good_storeInts _ _ | exact good_loadInts _ _ | exact good_loadProfile _
    | apply Good.ite | (apply Good.bind; rotate_left; intro _; rotate_right) | split

theorem good_sourceNew (a : SrcArgs α) (e : EArg) : Good (sourceNew a e) := by
  unfold sourceNew
  repeat' first
    | exact Good.pure _ | exact Good.ub | exact Good.malloc _ | exact Good.free _ | exact Good.load _ | exact Good.store _ _
    | exact good_storeArr _ _ | exact good_loadArr _ _ | exact good_loadProfile _ | exact good_loadDescr _ | exact good_descriptionNew _ _
    | exact good_sourceFree _
    | apply Good.ite | (apply Good.bind; rotate_left; intro _; rotate_right) | split

/-- `x`, run on `h`, returns `r` and only adds the blocks `nf` (of the new object) and `nl` (nobody's) -/
structure Makes {A : Type} (x : CM (Block α) A) (h : Heap (Block α)) (r : A) (h' : Heap (Block α)) (nf nl : List Nat) : Prop where
  run : x.run h = some (r, h')
  wf : h'.WF
  orc : h'.orc = h.orc
  next : h.next ≤ h'.next
  old : ∀ y, y < h.next → h'.mem y = h.mem y
  fresh : ∀ y, y ∈ nf ∨ y ∈ nl → h.next ≤ y
  cover : ∀ y, h.next ≤ y → h'.mem y ≠ none → y ∈ nf ∨ y ∈ nl
  lost : ∀ y ∈ nl, h'.mem y ≠ none
  one : (nf = [] ∧ nl.length ≤ 1) ∨ nl = []

/-- the heap with the caller's temporary array -/
def plus (h : Heap (Block α)) (b : Block α) : Heap (Block α) := { h with mem := upd h.mem h.next (some b), next := h.next + 1 }

theorem plus_wf {h : Heap (Block α)} (wf : h.WF) (b : Block α) : (plus h b).WF := by
  intro x hx
  simp only [plus] at hx ⊢
  rw [upd_other _ _ (by omega)]
  exact wf x (by omega)

theorem Makes.with {A : Type} {b : Block α} {f : Ptr → CM (Block α) A} {h : Heap (Block α)} {r : A} {h1 : Heap (Block α)} {nf nl : List Nat}
    (ok : AllocOk h) (m : Makes (f (some h.next)) (plus h b) r h1 nf nl) :
    Makes (do let p ← malloc b; let r ← f p; CM.free p; pure r) h r (without h1 [h.next]) nf nl := by
  have hn : h1.mem h.next = some b := by rw [m.old _ (by simp [plus])]; simp [plus]
  refine ⟨?_, ?_, m.orc, ?_, ?_, ?_, ?_, ?_, m.one⟩
  · rw [run_bind_some (show (malloc b).run h = some (some h.next, plus h b) by rw [run_malloc, if_pos (ok _)]; rfl), run_bind_some m.run,
      run_bind_some (free_without (by simp [hn]))]
    rfl
  · intro x hx
    simp only [without]
    split
    · rfl
    · exact m.wf x hx
  · have := m.next; simp only [plus] at this; simp only [without]; omega
  · intro y hy
    rw [without_mem _ (by simp; omega), m.old _ (by simp only [plus]; omega)]
    simp only [plus]
    rw [upd_other _ _ (by omega)]
  · intro y hy; have := m.fresh y hy; simp only [plus] at this; omega
  · intro y hy hl
    have hne : y ≠ h.next := by rintro rfl; simp [without] at hl
    rw [without_mem _ (by simpa using hne)] at hl
    exact m.cover y (by simp only [plus]; omega) hl
  · intro y hy
    have := m.fresh y (Or.inr hy)
    simp only [plus] at this
    rw [without_mem _ (by simp; omega)]
    exact m.lost y hy

theorem Makes.mk_agree {A : Type} {x : CM (Block α) A} {h h' : Heap (Block α)} {r : A} {nf nl} (m : Makes x h r h' nf nl) (wf : h.WF) {y : Nat}
    (hy : h.mem y ≠ none) : h'.mem y = h.mem y := by
  apply m.old
  by_contra hc
  exact hy (wf y (by omega))

/-- nothing is created -/
theorem Makes.nothing {A : Type} {x : CM (Block α) A} {h h' : Heap (Block α)} {r : A} (g : Good x) (e : x.run h = some (r, h')) (wf : h'.WF)
    (wf0 : h.WF) (hm : h'.mem = h.mem) : Makes x h r h' [] [] := by
  obtain ⟨o, n⟩ := g _ _ _ e
  refine ⟨e, wf, o, n, fun y _ => by rw [hm], by simp, ?_, by simp, Or.inr rfl⟩
  intro y hy hl
  rw [hm] at hl
  exact absurd (wf0 y hy) hl

theorem profileNew_makes (fit : Fit α) (a : ProfArgs α) (h : Heap (Block α)) (wf : h.WF) (ok : AllocOk h) :
    (∃ f h' nf, profRejects a = false ∧ profExt fit a = some f ∧ Makes (profileNew fit a (some none)) h (some h.next, some none) h' nf [] ∧
      OwnsProf h' h.next (profNmax, arr profNmax (profZ a), arr profNmax (profCap a), arr profNmax f) nf) ∨
    (∃ h', ¬ (profRejects a = false ∧ (profExt fit a).isSome) ∧ Makes (profileNew fit a (some none)) h (none, badArg) h' [] []) := by
  by_cases hr : profRejects a = true
  · right
    refine ⟨h, by simp [hr], Makes.nothing (good_profileNew _ _ _) (by simp [profileNew, hr, badArg]) wf wf rfl⟩
  simp only [Bool.not_eq_true] at hr
  obtain ⟨p, e', h', r, wf', c⟩ := profile_new_clean fit a (some none) h wf
  cases hp : profExt fit a with
  | none =>
    right
    have : ∃ h', (profileNew fit a (some none)).run h = some ((none, badArg), h') := by
      simp only [profileNew, hr, hp, Bool.false_eq_true, if_false]
      simp [run_bind, run_malloc, run_free, ok _, upd, Nat.add_assoc, badArg]
    obtain ⟨h2, r2⟩ := this
    rw [r] at r2
    simp only [Option.some.injEq, Prod.mk.injEq] at r2
    obtain ⟨⟨rfl, rfl⟩, rfl⟩ := r2
    refine ⟨h', by simp, Makes.nothing (good_profileNew _ _ _) r wf' wf ?_⟩
    rcases c with ⟨_, hm, _⟩ | ⟨b, hb, _⟩
    · exact hm
    · cases hb
  | some f =>
    left
    have : ∃ h', (profileNew fit a (some none)).run h = some ((some h.next, some none), h') ∧
        h'.mem = upd (upd (upd (upd h.mem h.next (some (.profile profNmax (some (h.next+1)) (some (h.next+2)) (some (h.next+3))))) (h.next+1) (some (.doubles (arr profNmax (profZ a))))) (h.next+2) (some (.doubles (arr profNmax (profCap a))))) (h.next+3) (some (.doubles (arr profNmax f))) := by
      simp only [profileNew, hr, hp, Bool.false_eq_true, if_false]
      simp [run_bind, run_malloc, run_load, run_store, storeArr, ok _, upd, Nat.add_assoc]
      funext x; grind [upd]
    obtain ⟨h2, r2, hm⟩ := this
    rw [r] at r2
    simp only [Option.some.injEq, Prod.mk.injEq] at r2
    obtain ⟨⟨rfl, rfl⟩, rfl⟩ := r2
    obtain ⟨o, n⟩ := good_profileNew fit a _ _ _ _ r
    refine ⟨f, h', [h.next, h.next+1, h.next+2, h.next+3], hr, rfl, ⟨r, wf', o, n, ?_, ?_, ?_, by simp, Or.inr rfl⟩, ?_⟩
    · intro y hy
      rw [hm]; simp only [upd]
      rw [if_neg (by omega), if_neg (by omega), if_neg (by omega), if_neg (by omega)]
    · intro y hy; simp at hy; omega
    · intro y hy hl
      rw [hm] at hl; simp only [upd] at hl
      left
      by_contra hc
      simp at hc
      rw [if_neg (by omega), if_neg (by omega), if_neg (by omega), if_neg (by omega)] at hl
      exact hl (wf y hy)
    · refine ⟨h.next+1, h.next+2, h.next+3, ?_, ?_, ?_, ?_, by simp, by simp, by simp, rfl, by simp⟩ <;> rw [hm] <;> simp [upd]

theorem fromArrays_makes (nid : Nat) (hn : 2 ≤ nid) (es cs zs : List α) (ext cap z : Nat) (h : Heap (Block α)) (wf : h.WF) (ok : AllocOk h)
    (he : h.mem ext = some (.doubles es)) (hc : h.mem cap = some (.doubles cs)) (hz : h.mem z = some (.doubles zs))
    (le : nid + 1 ≤ es.length) (lc : nid + 1 ≤ cs.length) (lz : nid + 1 ≤ zs.length) :
    ∃ b h' nf, Makes (profileNewFromArrays nid (some ext) (some cap) (some z) (some none)) h (some b, some none) h' nf [] ∧
      OwnsProf h' b (nid, zs.take (nid+1), cs.take (nid+1), es.take (nid+1)) nf := by
  have e1 : ext < h.next := lt_next_of_live wf he
  have c1 : cap < h.next := lt_next_of_live wf hc
  have z1 : z < h.next := lt_next_of_live wf hz
  have hnid : ¬ ((nid : Int) ≤ 1) := by omega
  have r : (profileNewFromArrays nid (some ext) (some cap) (some z) (some none)).run h = some ((some h.next, some none),
      { h with next := h.next + 4, mem := upd (upd (upd (upd h.mem h.next (some (.profile nid (some (h.next+3)) (some (h.next+2)) (some (h.next+1))))) (h.next+1) (some (.doubles (es.take (nid+1))))) (h.next+2) (some (.doubles (cs.take (nid+1))))) (h.next+3) (some (.doubles (zs.take (nid+1)))) }) := by
    have x : ∀ k, ext ≠ h.next + k := by intro k; omega
    have y : ∀ k, cap ≠ h.next + k := by intro k; omega
    have w : ∀ k, z ≠ h.next + k := by intro k; omega
    have x0 : ext ≠ h.next := by omega
    have y0 : cap ≠ h.next := by omega
    have z0 : z ≠ h.next := by omega
    simp [profileNewFromArrays, hnid, run_bind, run_malloc, run_load, run_store, storeArr, loadArr,
      ok _, upd, Nat.add_assoc, x, y, w, x0, y0, z0, he, hc, hz, Nat.lt_of_succ_le le, Nat.lt_of_succ_le lc, Nat.lt_of_succ_le lz]
    funext a; grind [upd]
  refine ⟨h.next, _, [h.next, h.next+3, h.next+2, h.next+1], ⟨r, ?_, rfl, by simp, ?_, ?_, ?_, by simp, Or.inr rfl⟩, ?_⟩
  · intro x hx
    simp at hx
    simp only [upd]
    rw [if_neg (by omega), if_neg (by omega), if_neg (by omega), if_neg (by omega)]
    exact wf x (by omega)
  · intro y hy
    simp only [upd]
    rw [if_neg (by omega), if_neg (by omega), if_neg (by omega), if_neg (by omega)]
  · intro y hy; simp at hy; omega
  · intro y hy hl
    simp only [upd] at hl
    left
    by_contra hc
    simp at hc
    rw [if_neg (by omega), if_neg (by omega), if_neg (by omega), if_neg (by omega)] at hl
    exact hl (wf y hy)
  · refine ⟨h.next+3, h.next+2, h.next+1, ?_, ?_, ?_, ?_, ?_, ?_, ?_, rfl, by simp⟩
    · simp [upd]
    · simp [upd]
    · simp [upd]
    · simp [upd]
    · simp; omega
    · simp; omega
    · simp; omega

theorem OwnsProf.read {h : Heap (Block α)} {a v f} (o : OwnsProf h a v f) : readProfile h (some a) = some v := by
  obtain ⟨z, c, e, m1, m2, m3, m4, _⟩ := o
  simp [readProfile, m1, m2, m3, m4]

theorem OwnsDescr.read {h : Heap (Block α)} {a v f} (o : OwnsDescr h a v f) : readDescr h (some a) = some v := by
  obtain ⟨i, w, p, g, m1, m2, m3, _, _, op, _⟩ := o
  simp [readDescr, m1, m2, m3, op.read]

theorem OwnsProf.lens {h : Heap (Block α)} {a v f} (o : OwnsProf h a v f) :
    v.2.1.length = v.1 + 1 ∧ v.2.2.1.length = v.1 + 1 ∧ v.2.2.2.length = v.1 + 1 := by
  obtain ⟨z, c, e, _, _, _, _, l1, l2, l3, _⟩ := o
  exact ⟨l1, l2, l3⟩

theorem descriptionNew_makes (sig : α) (n_cap : Int) (comp : List (Int × α)) (rho : α) (p iz wi : Nat) (v : PVal α) (f : List Nat) (h : Heap (Block α))
    (wf : h.WF) (ok : AllocOk h) (op : OwnsProf h p v f) (hi : h.mem iz = some (.ints (comp.map (·.1)))) (hw : h.mem wi = some (.doubles (comp.map (·.2)))) :
    (∃ h' nf b, DescDomain (dArgs sig n_cap comp rho) (comp.map (·.1)) (listProfile v.1 v.2.1 v.2.2.1 v.2.2.2) ∧
      Makes (descriptionNew ⟨some p, sig, n_cap, comp.length, some iz, some wi, rho⟩ (some none)) h
        (some b, (checkWeight (comp.map (·.2)) (some none)).2) h' nf [] ∧
      OwnsDescr h' b ⟨sig, n_cap, openArea (v.2.2.1.getD 0 (lit 0)) (v.2.2.2.getD 0 (lit 0)) n_cap, comp.length, comp.map (·.1),
          (checkWeight (comp.map (·.2)) (some none)).1, rho, v⟩ nf) ∨
    (∃ h' x, ¬ DescDomain (dArgs sig n_cap comp rho) (comp.map (·.1)) (listProfile v.1 v.2.1 v.2.2.1 v.2.2.2) ∧
      (descRejects (dArgs sig n_cap comp rho) = false ∧ (comp.map (·.1)).any badZ = false) ∧
      Makes (descriptionNew ⟨some p, sig, n_cap, comp.length, some iz, some wi, rho⟩ (some none)) h (none, badArg) h' [] [x]) ∨
    (∃ h', ¬ DescDomain (dArgs sig n_cap comp rho) (comp.map (·.1)) (listProfile v.1 v.2.1 v.2.2.1 v.2.2.2) ∧
      ¬ (descRejects (dArgs sig n_cap comp rho) = false ∧ (comp.map (·.1)).any badZ = false) ∧
      Makes (descriptionNew ⟨some p, sig, n_cap, comp.length, some iz, some wi, rho⟩ (some none)) h (none, badArg) h' [] []) := by
  obtain ⟨lz, lc, le⟩ := op.lens
  obtain ⟨n, zs, cs, es⟩ := v
  simp only at lz lc le
  have inp : DescInput h ⟨some p, sig, n_cap, comp.length, some iz, some wi, rho⟩ (comp.map (·.1)) (comp.map (·.2)) n zs cs es :=
    ⟨⟨iz, [], rfl, by simpa using hi⟩, ⟨wi, [], rfl, by simpa using hw⟩, by simp, by simp, op.read, lz, lc, le⟩
  obtain ⟨q, e', h', r, wf', orc, c⟩ := description_new_outcomes _ (some none) h wf _ _ n zs cs es inp
  obtain ⟨_, nx⟩ := good_descriptionNew _ _ _ _ _ r
  have rj : descRejects (⟨some p, sig, n_cap, comp.length, some iz, some wi, rho⟩ : DescArgs α) = descRejects (dArgs sig n_cap comp rho) := by
    unfold descRejects dArgs
    rw [decide_eq_false (show ¬ (some iz : Ptr) = none by simp), decide_eq_false (show ¬ (some wi : Ptr) = none by simp),
      decide_eq_false (show ¬ (some 0 : Ptr) = none by simp)]
  have dd := descDomain_iff (a := dArgs sig n_cap comp rho) (is := comp.map (·.1)) (p := listProfile n zs cs es) (by simp [dArgs]) (by simp [dArgs])
  rw [rj] at c
  dsimp only at c ⊢
  rcases c with ⟨rfl, hm, hg, rfl⟩ | ⟨_, _, _, _, ⟨k, hk⟩, _⟩ | ⟨rfl, h1, h2, h3, hm, he⟩ | ⟨rfl, h1, h2, h3, rfl, hm⟩
  · right; right
    have ng : ¬ (descRejects (dArgs sig n_cap comp rho) = false ∧ (comp.map (·.1)).any badZ = false) := by
      rintro ⟨g1, g2⟩
      rcases hg with hg | hg
      · rw [g1] at hg; cases hg
      · rw [g2] at hg; cases hg
    exact ⟨h', fun d => ng ⟨(dd.mp d).1, (dd.mp d).2.1⟩, ng, Makes.nothing (good_descriptionNew _ _) r wf' wf hm⟩
  · rw [ok k] at hk; cases hk
  · right; left
    have hb : e' = badArg := by
      rw [he]; simp only [checkWeight]
      repeat' split
      all_goals rfl
    subst hb
    refine ⟨h', h.next + 6, fun d => h3 (dd.mp d).2.2, ⟨h1, h2⟩, ⟨r, wf', orc, nx, ?_, ?_, ?_, ?_, Or.inl ⟨rfl, by simp⟩⟩⟩
    · intro y hy; rw [hm, upd_other _ _ (by omega)]
    · intro y hy; simp at hy; omega
    · intro y hy hl
      right
      by_contra hc
      simp at hc
      rw [hm, upd_other _ _ hc] at hl
      exact hl (wf y hy)
    · intro y hy; simp at hy; subst hy; rw [hm]; simp
  · left
    refine ⟨h', [h.next, h.next+1, h.next+2, h.next+3, h.next+4, h.next+5, h.next+6], h.next, dd.mpr ⟨h1, h2, h3⟩,
      ⟨r, wf', orc, nx, ?_, ?_, ?_, by simp, Or.inr rfl⟩, ?_⟩
    · intro y hy
      rw [hm]; simp only [upd]
      rw [if_neg (by omega), if_neg (by omega), if_neg (by omega), if_neg (by omega), if_neg (by omega), if_neg (by omega), if_neg (by omega)]
    · intro y hy; simp at hy; omega
    · intro y hy hl
      rw [hm] at hl; simp only [upd] at hl
      left
      by_contra hc
      simp at hc
      rw [if_neg (by omega), if_neg (by omega), if_neg (by omega), if_neg (by omega), if_neg (by omega), if_neg (by omega), if_neg (by omega)] at hl
      exact hl (wf y hy)
    · refine ⟨h.next+1, h.next+2, h.next+3, [h.next+3, h.next+4, h.next+5, h.next+6], ?_, ?_, ?_, by simp, by simp [checkWeight_length],
        ⟨h.next+4, h.next+5, h.next+6, ?_, ?_, ?_, ?_, lz, lc, le, rfl, by simp⟩, rfl, by simp⟩ <;> rw [hm] <;> simp [upd]

theorem sourceNew_makes (a : SrcPars α) (d en : Nat) (v : DescView α) (f : List Nat) (h : Heap (Block α)) (wf : h.WF) (ok : AllocOk h)
    (od : OwnsDescr h d v f) (he : h.mem en = some (.doubles a.energies)) :
    (∃ h' nf b d', SrcDomain (sArgs a) v a.energies ∧
      Makes (sourceNew ⟨some d, a.d_source, a.src_x, a.src_y, a.src_sigx, a.src_sigy, a.src_shiftx, a.src_shifty, a.hor_pol, a.energies.length,
        some en⟩ (some none)) h (some b, some none) h' nf [] ∧
      OwnsSrc h' b ⟨copyOf v, a.d_source, a.src_x, a.src_y, a.src_sigx, a.src_sigy, a.src_shiftx, a.src_shifty, a.hor_pol, a.energies⟩ d' nf) ∨
    (∃ h', ¬ SrcDomain (sArgs a) v a.energies ∧
      Makes (sourceNew ⟨some d, a.d_source, a.src_x, a.src_y, a.src_sigx, a.src_sigy, a.src_shiftx, a.src_shifty, a.hor_pol, a.energies.length,
        some en⟩ (some none)) h (none, badArg) h' [] []) := by
  obtain ⟨i, w, p, g, _, _, _, l1, l2, op, _⟩ := id od
  obtain ⟨lz, lc, le⟩ := op.lens
  have inp : SrcInput h ⟨some d, a.d_source, a.src_x, a.src_y, a.src_sigx, a.src_sigy, a.src_shiftx, a.src_shifty, a.hor_pol, a.energies.length,
        some en⟩ v a.energies := ⟨od.read, l1, l2, lz, lc, le, ⟨en, [], rfl, by simpa using he⟩, rfl⟩
  obtain ⟨q, e', h', r, wf', c⟩ := source_new_outcomes _ (some none) h wf ok v a.energies inp
  obtain ⟨orc, nx⟩ := good_sourceNew _ _ _ _ _ r
  rcases c with ⟨rfl, nd, hm, hb⟩ | ⟨rfl, dm, rfl, hd, hdm, wfd, hdn, orc', pp, i', w', hd', inD, rd, wfd', rb, hm, hn⟩
  · right
    rw [hb rfl] at r
    exact ⟨h', fun d => nd (by cases d; constructor <;> assumption), Makes.nothing (good_sourceNew _ _) r wf' wf hm⟩
  · left
    obtain ⟨q, e3, h3, r3, _, _, oc⟩ := description_new_outcomes _ none hd wfd v.iz v.wi _ _ _ _ inD
    rw [rd] at r3
    simp only [Option.some.injEq, Prod.mk.injEq] at r3
    obtain ⟨⟨rfl, rfl⟩, rfl⟩ := r3
    rcases oc with ⟨hp, _⟩ | ⟨hp, _⟩ | ⟨hp, _⟩ | ⟨hp, _, _, _, _, hm2⟩
    · cases hp
    · cases hp
    · cases hp
    rw [hdn] at hm2
    have hmm : h'.mem = _ := hm
    rw [hm2, show hd.mem = _ from funext hdm] at hmm
    simp only [Nat.add_assoc, Nat.reduceAdd] at hmm
    clear hm hm2 hdm wfd wfd' rb rd inD hn hdn orc'
    refine ⟨h', [h.next, h.next+2, h.next+1, h.next+3, h.next+4, h.next+5, h.next+6, h.next+7, h.next+8, h.next+9], h.next, h.next+3,
      (by cases dm; constructor <;> assumption), ⟨r, wf', orc, nx, ?_, ?_, ?_, by simp, Or.inr rfl⟩, ?_⟩
    · intro y hy
      rw [hmm]; simp only [upd]
      rw [if_neg (by omega), if_neg (by omega), if_neg (by omega), if_neg (by omega), if_neg (by omega), if_neg (by omega), if_neg (by omega),
        if_neg (by omega), if_neg (by omega), if_neg (by omega), if_neg (by omega)]
    · intro y hy; simp at hy; omega
    · intro y hy hl
      rw [hmm] at hl; simp only [upd] at hl
      left
      by_contra hc
      simp only [List.mem_cons, List.not_mem_nil, or_false, not_or] at hc
      rw [if_neg (by omega), if_neg (by omega), if_neg (by omega), if_neg (by omega), if_neg (by omega), if_neg (by omega), if_neg (by omega),
        if_neg (by omega), if_neg (by omega), if_neg (by omega), if_neg (by omega)] at hl
      exact hl (wf y hy)
    · refine ⟨h.next+2, h.next+1, [h.next+3, h.next+4, h.next+5, h.next+6, h.next+7, h.next+8, h.next+9], ?_, ?_, ?_,
        ⟨h.next+4, h.next+5, h.next+6, [h.next+6, h.next+7, h.next+8, h.next+9], ?_, ?_, ?_, l1, by simpa [copyOf, checkWeight_length] using l2,
          ⟨h.next+7, h.next+8, h.next+9, ?_, ?_, ?_, ?_, lz, lc, le, rfl, by simp⟩, rfl, by simp⟩, rfl, by simp⟩ <;> rw [hmm] <;>
        simp [upd, copyOf, nestedArgs]

end Polycap.Sess
