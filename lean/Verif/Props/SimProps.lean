import Verif.Sim
import Mathlib.Data.List.Perm.Basic
import Mathlib.Data.List.Nodup
import Mathlib.Algebra.BigOperators.Group.List.Basic

/-!
# The parallel simulation: C32, C33, C34, C35, C36

What a simulation reports is compared with the *history* of each thread: the photons it generated, in order, with the slot they
were generated for.
-/
namespace Polycap
open CNum

variable {α : Type} [CNum α]

/-! ## Specification: histories -/

/-- The photons one slot needs: unsuccessful ones, then one that leaves through the exit window.  `g` is what the
generator and the tracer deliver at a position of the random stream. -/
inductive SlotRun (D : Descr α) (g : Nat → Out (Attempt α × Nat)) : Nat → List (Attempt α) → Nat → Prop
  | last {p a p'} (h : g p = .ok (a, p')) (hc : simCode D a = 1) : SlotRun D g p [a] p'
  | retry {p a p1 l p'} (h : g p = .ok (a, p1)) (hc : simCode D a ≠ 1) (hr : SlotRun D g p1 l p') : SlotRun D g p (a :: l) p'

/-- The photons a thread needs for its slots. -/
inductive ThreadRun (D : Descr α) (g : Nat → Out (Attempt α × Nat)) : List Nat → Nat → List (Nat × Attempt α) → Nat → Prop
  | nil (p) : ThreadRun D g [] p [] p
  | cons {j js p l p1 h p2} (hs : SlotRun D g p l p1) (hr : ThreadRun D g js p1 h p2) :
      ThreadRun D g (j :: js) p (l.map (fun a => (j, a)) ++ h) p2

theorem SlotRun.det {D : Descr α} {g : Nat → Out (Attempt α × Nat)} {p l p' m p''} (h : SlotRun D g p l p')
    (h' : SlotRun D g p m p'') : l = m ∧ p' = p'' := by
  induction h generalizing m p'' with
  | last h hc =>
    cases h' with
    | last h2 _ => rw [h] at h2; cases h2; exact ⟨rfl, rfl⟩
    | retry h2 hc2 _ => rw [h] at h2; cases h2; exact absurd hc hc2
  | retry h hc _ ih =>
    cases h' with
    | last h2 hc2 => rw [h] at h2; cases h2; exact absurd hc2 hc
    | retry h2 _ hr2 => rw [h] at h2; cases h2; obtain ⟨rfl, rfl⟩ := ih hr2; exact ⟨rfl, rfl⟩

theorem ThreadRun.det {D : Descr α} {g : Nat → Out (Attempt α × Nat)} {js p l p' m p''} (h : ThreadRun D g js p l p')
    (h' : ThreadRun D g js p m p'') : l = m ∧ p' = p'' := by
  induction h generalizing m p'' with
  | nil p => cases h'; exact ⟨rfl, rfl⟩
  | cons hs _ ih =>
    cases h' with
    | cons hs2 hr2 =>
      obtain ⟨rfl, rfl⟩ := hs.det hs2
      obtain ⟨rfl, rfl⟩ := ih hr2
      exact ⟨rfl, rfl⟩

/-- the photons that left through the exit window, with their slots -/
def exitsOf (D : Descr α) (h : List (Nat × Attempt α)) : List (Nat × Attempt α) := h.filter (fun x => decide (simCode D x.2 = 1))

/-- photons whose leak events count: all but those that missed the optic or could not be traced -/
def leaksCount (D : Descr α) (a : Attempt α) : Bool := decide (simCode D a = 0 ∨ simCode D a = 1 ∨ simCode D a = 2)

/-- keep the weights of the `ne` energies -/
def trunc (ne : Nat) (l : Leak α) : Leak α := { l with weight := l.weight.take ne }

omit [CNum α] in
@[simp] theorem trunc_trunc (ne : Nat) (l : Leak α) : trunc ne (trunc ne l) = trunc ne l := by
  simp [trunc]
omit [CNum α] in
@[simp] theorem trunc_comp (ne : Nat) : trunc (α := α) ne ∘ trunc ne = trunc ne := by
  funext l; simp

/-- leak events of a history -/
def extOf (D : Descr α) (ne : Nat) (h : List (Nat × Attempt α)) : List (Leak α) :=
  h.flatMap (fun x => if leaksCount D x.2 then x.2.ph.ext.map (trunc ne) else [])
def intOf (D : Descr α) (ne : Nat) (h : List (Nat × Attempt α)) : List (Leak α) :=
  h.flatMap (fun x => if leaksCount D x.2 then x.2.ph.int.map (trunc ne) else [])

/-- the weights of a photon -/
def wtsOf (ne : Nat) (a : Attempt α) : List α :=
  match a.wts with
  | .filled ws => ws.take ne
  | _ => []

/-! ## Steps, taken apart -/

omit [CNum α] in
theorem copyLeaks_ok {ne : Nat} {ls cs : List (Leak α)} (h : copyLeaks ne ls = .ok cs) :
    cs = ls.map (trunc ne) ∧ ∀ l ∈ ls, ne ≤ l.weight.length := by
  unfold copyLeaks at h
  split_ifs at h with hc
  · injection h with h
    refine ⟨h ▸ rfl, ?_⟩
    simpa [List.all_eq_true] using hc

omit [CNum α] in
theorem append_ok {ne : Nat} {b b' : Buf α} {ls : List (Leak α)} (h : b.append ne ls = .ok b') :
    b'.items = b.items ++ ls.map (trunc ne) ∧ b'.items.length ≤ b'.cap := by
  unfold Buf.append at h
  rw [Out.bind_eq_ok] at h
  obtain ⟨cs, hc, h⟩ := h
  obtain ⟨rfl, -⟩ := copyLeaks_ok hc
  split at h
  · injection h with h
    subst h
    refine ⟨rfl, ?_⟩
    simp only [List.length_append, List.length_map]
    assumption
  · cases h

/-- elementwise sum of weights -/
def addW (a b : List α) : List α := List.zipWith (· +. ·) a b

/-- What a step of thread `t` does. -/
inductive Move (C : Cfg α) (t : Nat) (s : St α) : St α → Prop
  | retry (j rest a pos) (e i : Buf α) (hpc : (s.thr t).pc = .work j rest) (ha : C.att t (s.thr t).pos = .ok (a, pos))
      (hc : simCode C.D a ≠ 1) (hc' : simRetry (simCode C.D a) = true)
      (he : e.items = (s.thr t).extT.items ++ if C.leak ∧ leaksCount C.D a then a.ph.ext.map (trunc C.ne) else [])
      (hi : i.items = (s.thr t).intT.items ++ if C.leak ∧ leaksCount C.D a then a.ph.int.map (trunc C.ne) else []) :
      Move C t s (s.set t ({ s.thr t with pos := pos, hist := (s.thr t).hist ++ [(j, a)], extT := e, intT := i, pc := .work j rest },
        countCode t a s.sh))
  | exit (j rest a pos a') (e i : Buf α) (hpc : (s.thr t).pc = .work j rest) (ha : C.att t (s.thr t).pos = .ok (a, pos))
      (hc : simCode C.D a = 1) (hj : j < C.n)
      (ha' : a' = if C.leak then { a with ph := { a.ph with ext := a.ph.ext ++ (s.thr t).extT.items.map (trunc C.ne),
                                                            int := a.ph.int ++ (s.thr t).intT.items.map (trunc C.ne) } } else a)
      (he : e.items = if C.leak then [] else (s.thr t).extT.items)
      (hi : i.items = if C.leak then [] else (s.thr t).intT.items) :
      Move C t s (s.set t ({ s.thr t with pos := pos, hist := (s.thr t).hist ++ [(j, a)], extT := e, intT := i, pc := .save j a' rest },
        { countCode t a s.sh with iexit := upd1 s.sh.iexit t (s.sh.iexit t + 1), start := upd1 s.sh.start j (some (startRec a)) }))
  | save (j rest a prog ws) (e i : Buf α) (hpc : (s.thr t).pc = .save j a rest) (hw : a.wts = .filled ws) (hl : C.ne ≤ ws.length)
      (hj : j < C.n)
      (he : e.items = (s.thr t).ext.items ++ if C.leak then a.ph.ext.map (trunc C.ne) else [])
      (hi : i.items = (s.thr t).int.items ++ if C.leak then a.ph.int.map (trunc C.ne) else []) :
      Move C t s (s.set t (
        { s.thr t with weights := addW (s.thr t).weights (ws.take C.ne), prog := prog, pc := .refl a.ph.i_refl rest, ext := e, int := i },
        { s.sh with exitW := putRow s.sh.exitW C.ne j (ws.take C.ne), exit := upd1 s.sh.exit j (some (exitRec C.D.prof a.ph)),
                    writes := upd1 s.sh.writes j (s.sh.writes j + 1) }))
  | refl (n rest) (hpc : (s.thr t).pc = .refl n rest) :
      Move C t s (s.set t ({ s.thr t with pc := nextPc rest }, { s.sh with irefl := s.sh.irefl + n }))
  | forEnd (hpc : (s.thr t).pc = .forEnd) (hb : ∀ i < C.T, 1 ≤ (s.thr i).pc.rank) :
      Move C t s (s.set t ({ s.thr t with pc := .sum }, s.sh))
  | sumLeak (hpc : (s.thr t).pc = .sum) (hl : C.leak = true) :
      Move C t s (s.set t ({ s.thr t with pc := .barrier }, 
        { s.sh with sumW := addW s.sh.sumW (s.thr t).weights, iExt := s.sh.iExt + (s.thr t).ext.items.length,
                    iInt := s.sh.iInt + (s.thr t).int.items.length }))
  | sum (hpc : (s.thr t).pc = .sum) (hl : C.leak = false) :
      Move C t s (s.set t ({ s.thr t with pc := .done }, { s.sh with sumW := addW s.sh.sumW (s.thr t).weights }))
  | barrier (hpc : (s.thr t).pc = .barrier) (hb : ∀ i < C.T, 3 ≤ (s.thr i).pc.rank) :
      Move C t s (s.set t ({ s.thr t with pc := .single }, s.sh))
  | singleFirst (hpc : (s.thr t).pc = .single) (ha : s.sh.alloc = none) :
      Move C t s (s.set t ({ s.thr t with pc := .singleEnd }, { s.sh with alloc := some (s.sh.iExt, s.sh.iInt), extN := 0, intN := 0 }))
  | singleOther (x) (hpc : (s.thr t).pc = .single) (ha : s.sh.alloc = some x) :
      Move C t s (s.set t ({ s.thr t with pc := .singleEnd }, s.sh))
  | singleEnd (hpc : (s.thr t).pc = .singleEnd) (hb : ∀ i < C.T, 5 ≤ (s.thr i).pc.rank) :
      Move C t s (s.set t ({ s.thr t with pc := .copy }, s.sh))
  | copy (sh1 sh2) (hpc : (s.thr t).pc = .copy) (h1 : putAll (putExt C.ne) s.sh (s.thr t).ext.items = .ok sh1)
      (h2 : putAll (putInt C.ne) sh1 (s.thr t).int.items = .ok sh2) :
      Move C t s (s.set t ({ s.thr t with pc := .done }, sh2))

theorem simRetry_leaks {D : Descr α} {a : Attempt α} (hc : simCode D a ≠ 1) :
    (simCode D a = 0 ∨ simCode D a = 2) ↔ leaksCount D a = true := by
  simp only [leaksCount, decide_eq_true_eq]
  tauto

omit [CNum α] in
theorem Res.of_next {s s' : St α} {t : Nat} {o : Out (Thr α × Shared α)} (h : Res.of s t o = .next s') :
    ∃ x, o = .ok x ∧ s' = s.set t x := by
  cases o with
  | ok x => exact ⟨x, rfl, by simpa [Res.of] using h.symm⟩
  | ub => simp [Res.of] at h
  | fuel => simp [Res.of] at h

omit [CNum α] in
theorem leakBuf_ok {ne : Nat} {b e : Buf α} {ls : List (Leak α)}
    (h : b.appendIf ne ls = .ok e) : e.items = b.items ++ ls.map (trunc ne) := by
  unfold Buf.appendIf at h
  split_ifs at h with h0
  · exact (append_ok h).1
  · injection h with h
    subst h
    have : ls = [] := by
      cases ls with
      | nil => rfl
      | cons a l => simp at h0
    subst this
    simp

omit [CNum α] in
theorem emptied (b : Buf α) : b.drain.items = [] := by
  unfold Buf.drain
  split_ifs with h
  · rfl
  · cases hb : b.items with
    | nil => rfl
    | cons a l => rw [hb] at h; simp at h

theorem tstep_move {C : Cfg α} {t : Nat} {s s' : St α} (h : tstep C t s = .next s') : Move C t s s' := by
  unfold tstep at h
  dsimp only at h
  split at h
  · next j rest hpc =>
    obtain ⟨x, hx, rfl⟩ := Res.of_next h
    rw [Out.bind_eq_ok] at hx
    obtain ⟨⟨a, pos⟩, ha, hx⟩ := hx
    unfold workStep at hx
    dsimp only at hx
    by_cases h1 : simCode C.D a = 1
    · rw [if_pos h1] at hx
      by_cases h2 : C.n ≤ j
      · rw [if_pos h2] at hx; cases hx
      rw [if_neg h2, Out.bind_eq_ok] at hx
      obtain ⟨y, hy, hx⟩ := hx
      injection hx with hx
      subst hx
      unfold passLeaks at hy
      split_ifs at hy with h3
      · rw [Out.bind_eq_ok] at hy
        obtain ⟨ce, hce, hy⟩ := hy
        rw [Out.bind_eq_ok] at hy
        obtain ⟨ci, hci, hy⟩ := hy
        obtain ⟨rfl, -⟩ := copyLeaks_ok hce
        obtain ⟨rfl, -⟩ := copyLeaks_ok hci
        injection hy with hy
        subst hy
        exact Move.exit j rest a pos _ _ _ hpc ha h1 (by omega) (by simp [h3]) (by rw [if_pos h3]; exact emptied _)
          (by rw [if_pos h3]; exact emptied _)
      · injection hy with hy
        subst hy
        exact Move.exit j rest a pos _ _ _ hpc ha h1 (by omega) (by simp [h3]) (by simp [h3]) (by simp [h3])
    · rw [if_neg h1, Out.bind_eq_ok] at hx
      obtain ⟨th, hth, hx⟩ := hx
      split_ifs at hx with h2 hr
      injection hx with hx
      subst hx
      unfold keepLeaks at hth
      split_ifs at hth with hl
      · rw [Out.bind_eq_ok] at hth
        obtain ⟨e, he, hth⟩ := hth
        rw [Out.bind_eq_ok] at hth
        obtain ⟨i, hi, hth⟩ := hth
        injection hth with hth
        subst hth
        have hl' : C.leak = true ∧ leaksCount C.D a = true := ⟨hl.1, (simRetry_leaks h1).1 hl.2⟩
        exact Move.retry j rest a pos e i hpc ha h1 hr (by rw [if_pos hl']; exact leakBuf_ok he)
          (by rw [if_pos hl']; exact leakBuf_ok hi)
      · injection hth with hth
        subst hth
        have hl' : ¬ (C.leak = true ∧ leaksCount C.D a = true) := fun hh => hl ⟨hh.1, (simRetry_leaks h1).2 hh.2⟩
        exact Move.retry j rest a pos _ _ hpc ha h1 hr (by rw [if_neg hl']; simp) (by rw [if_neg hl']; simp)
  · next j a rest hpc =>
    obtain ⟨x, hx, rfl⟩ := Res.of_next h
    unfold saveStep at hx
    dsimp only at hx
    split at hx
    · cases hx
    · split at hx
      · next ws hws =>
        split_ifs at hx with hb hl
        · rw [Out.bind_eq_ok] at hx
          obtain ⟨e, he, hx⟩ := hx
          rw [Out.bind_eq_ok] at hx
          obtain ⟨i, hi, hx⟩ := hx
          injection hx with hx
          subst hx
          exact Move.save j rest a _ ws e i hpc hws (by omega) (by omega) (by rw [if_pos hl]; exact (append_ok he).1)
            (by rw [if_pos hl]; exact (append_ok hi).1)
        · injection hx with hx
          subst hx
          exact Move.save j rest a _ ws _ _ hpc hws (by omega) (by omega) (by rw [if_neg hl]; simp) (by rw [if_neg hl]; simp)
      · cases hx
  · next n rest hpc => injection h with h; subst h; exact Move.refl n rest hpc
  · next hpc =>
    split_ifs at h with hb
    · injection h with h; subst h; exact Move.forEnd hpc (by simpa [allAt] using hb)
  · next hpc =>
    split_ifs at h with hl
    · injection h with h; subst h; exact Move.sumLeak hpc hl
    · injection h with h; subst h; exact Move.sum hpc (by simpa using hl)
  · next hpc =>
    split_ifs at h with hb
    · injection h with h; subst h; exact Move.barrier hpc (by simpa [allAt] using hb)
  · next hpc =>
    split at h
    · next ha => injection h with h; subst h; exact Move.singleFirst hpc ha
    · next x ha => injection h with h; subst h; exact Move.singleOther x hpc ha
  · next hpc =>
    split_ifs at h with hb
    · injection h with h; subst h; exact Move.singleEnd hpc (by simpa [allAt] using hb)
  · next hpc =>
    obtain ⟨x, hx, rfl⟩ := Res.of_next h
    rw [Out.bind_eq_ok] at hx
    obtain ⟨sh1, h1, hx⟩ := hx
    rw [Out.bind_eq_ok] at hx
    obtain ⟨sh2, h2, hx⟩ := hx
    injection hx with hx
    subst hx
    exact Move.copy sh1 sh2 hpc h1 h2
  · cases h

/-! ## What one thread does -/

/-- slots a thread still has to serve -/
def pending : Pc α → List Nat
  | .work j rest => j :: rest
  | .save _ _ rest => rest
  | .refl _ rest => rest
  | _ => []

/-- photons whose exit has been recorded -/
def recorded (D : Descr α) (th : Thr α) : List (Nat × Attempt α) :=
  match th.pc with
  | .save _ _ _ => (exitsOf D th.hist).dropLast
  | _ => exitsOf D th.hist

/-- leaks attached to the photon being recorded -/
def heldE : Pc α → List (Leak α)
  | .save _ a _ => a.ph.ext
  | _ => []
def heldI : Pc α → List (Leak α)
  | .save _ a _ => a.ph.int
  | _ => []

/-- how a history continues -/
def Cont (C : Cfg α) (t : Nat) (pc : Pc α) (pos : Nat) (h : List (Nat × Attempt α)) (p' : Nat) : Prop :=
  match pc with
  | .work j rest => ThreadRun C.D (C.att t) (j :: rest) pos h p'
  | .save _ _ rest => ThreadRun C.D (C.att t) rest pos h p'
  | .refl _ rest => ThreadRun C.D (C.att t) rest pos h p'
  | _ => h = [] ∧ p' = pos

def Pc.isWork : Pc α → Bool
  | .work _ _ => true
  | _ => false

/-- the photon except for its leaks -/
def SamePhoton (a a0 : Attempt α) : Prop :=
  a = { a0 with ph := { a0.ph with ext := a.ph.ext, int := a.ph.int } }

/-- Invariant of one thread. -/
structure LInv (C : Cfg α) (asg : Nat → List Nat) (t : Nat) (s : St α) : Prop where
  cont : ∀ h p', Cont C t (s.thr t).pc (s.thr t).pos h p' →
    ThreadRun C.D (C.att t) (asg t) 0 ((s.thr t).hist ++ h) p'
  ie : s.sh.iexit t = (exitsOf C.D (s.thr t).hist).length
  ne : s.sh.notEntered t = (s.thr t).hist.countP (fun x => decide (x.2.code = 2))
  nt : s.sh.notTransmitted t = (s.thr t).hist.countP (fun x => decide (x.2.code = 0))
  slots : (exitsOf C.D (s.thr t).hist).map Prod.fst ++ pending (s.thr t).pc = asg t
  wts : (s.thr t).weights = (recorded C.D (s.thr t)).foldl (fun w x => addW w (wtsOf C.ne x.2)) (List.replicate C.ne (lit 0))
  leakE : C.leak = true → ((s.thr t).ext.items ++ ((heldE (s.thr t).pc).map (trunc C.ne) ++ (s.thr t).extT.items)).Perm
    (extOf C.D C.ne (s.thr t).hist)
  leakI : C.leak = true → ((s.thr t).int.items ++ ((heldI (s.thr t).pc).map (trunc C.ne) ++ (s.thr t).intT.items)).Perm
    (intOf C.D C.ne (s.thr t).hist)
  flush : C.leak = true → (s.thr t).pc.isWork = false → (s.thr t).extT.items = [] ∧ (s.thr t).intT.items = []
  held : ∀ j a rest, (s.thr t).pc = .save j a rest → ∃ l a0, exitsOf C.D (s.thr t).hist = l ++ [(j, a0)] ∧ SamePhoton a a0
  long : ∀ x ∈ recorded C.D (s.thr t), (wtsOf C.ne x.2).length = C.ne
  tEq : ∀ l ∈ (s.thr t).extT.items, trunc C.ne l = l
  tEqI : ∀ l ∈ (s.thr t).intT.items, trunc C.ne l = l

omit [CNum α] in
@[simp] theorem set_thr (s : St α) (t : Nat) (x : Thr α × Shared α) : (s.set t x).thr t = x.1 := by simp [St.set, upd1]
omit [CNum α] in
@[simp] theorem set_sh (s : St α) (t : Nat) (x : Thr α × Shared α) : (s.set t x).sh = x.2 := rfl
omit [CNum α] in
theorem set_thr_ne (s : St α) {t u : Nat} (h : u ≠ t) (x : Thr α × Shared α) : (s.set t x).thr u = s.thr u := by
  simp [St.set, upd1, h]

/-- members of the shared state that copying leaks does not touch -/
structure SameBase (a b : Shared α) : Prop where
  start : b.start = a.start
  exit : b.exit = a.exit
  exitW : b.exitW = a.exitW
  writes : b.writes = a.writes
  iexit : b.iexit = a.iexit
  notEntered : b.notEntered = a.notEntered
  notTransmitted : b.notTransmitted = a.notTransmitted
  sumW : b.sumW = a.sumW
  iExt : b.iExt = a.iExt
  iInt : b.iInt = a.iInt
  alloc : b.alloc = a.alloc

omit [CNum α] in
theorem putAll_base {put : Shared α → Leak α → Out (Shared α)} (hp : ∀ a l b, put a l = .ok b → SameBase a b) :
    ∀ (ls : List (Leak α)) (a b : Shared α), putAll put a ls = .ok b → SameBase a b
  | [], a, b, h => by
    injection h with h
    subst h
    exact ⟨rfl, rfl, rfl, rfl, rfl, rfl, rfl, rfl, rfl, rfl, rfl⟩
  | l :: ls, a, b, h => by
    unfold putAll at h
    rw [Out.bind_eq_ok] at h
    obtain ⟨c, hc, h⟩ := h
    have h1 := hp _ _ _ hc
    have h2 := putAll_base hp ls c b h
    exact ⟨h2.start.trans h1.start, h2.exit.trans h1.exit, h2.exitW.trans h1.exitW, h2.writes.trans h1.writes,
      h2.iexit.trans h1.iexit, h2.notEntered.trans h1.notEntered, h2.notTransmitted.trans h1.notTransmitted,
      h2.sumW.trans h1.sumW, h2.iExt.trans h1.iExt, h2.iInt.trans h1.iInt, h2.alloc.trans h1.alloc⟩

omit [CNum α] in
theorem putExt_base {ne : Nat} (a : Shared α) (l : Leak α) (b : Shared α) (h : putExt ne a l = .ok b) : SameBase a b := by
  unfold putExt at h
  split at h
  · cases h
  · split_ifs at h
    injection h with h
    subst h
    exact ⟨rfl, rfl, rfl, rfl, rfl, rfl, rfl, rfl, rfl, rfl, rfl⟩

omit [CNum α] in
theorem putInt_base {ne : Nat} (a : Shared α) (l : Leak α) (b : Shared α) (h : putInt ne a l = .ok b) : SameBase a b := by
  unfold putInt at h
  split at h
  · cases h
  · split_ifs at h
    injection h with h
    subst h
    exact ⟨rfl, rfl, rfl, rfl, rfl, rfl, rfl, rfl, rfl, rfl, rfl⟩

omit [CNum α] in
theorem copy_base {ne : Nat} {a b c : Shared α} {l m : List (Leak α)} (h1 : putAll (putExt ne) a l = .ok b)
    (h2 : putAll (putInt ne) b m = .ok c) : SameBase a c := by
  have h1 := putAll_base putExt_base _ _ _ h1
  have h2 := putAll_base putInt_base _ _ _ h2
  exact ⟨h2.start.trans h1.start, h2.exit.trans h1.exit, h2.exitW.trans h1.exitW, h2.writes.trans h1.writes,
      h2.iexit.trans h1.iexit, h2.notEntered.trans h1.notEntered, h2.notTransmitted.trans h1.notTransmitted,
      h2.sumW.trans h1.sumW, h2.iExt.trans h1.iExt, h2.iInt.trans h1.iInt, h2.alloc.trans h1.alloc⟩

/-- a step of one thread leaves the others and their counters alone -/
theorem Move.frame {C : Cfg α} {t u : Nat} {s s' : St α} (m : Move C t s s') (h : u ≠ t) :
    s'.thr u = s.thr u ∧ s'.sh.iexit u = s.sh.iexit u ∧ s'.sh.notEntered u = s.sh.notEntered u ∧
      s'.sh.notTransmitted u = s.sh.notTransmitted u := by
  cases m with
  | retry j rest a pos e i hpc ha hc hc' he hi =>
    refine ⟨set_thr_ne _ h _, rfl, ?_, ?_⟩ <;> · simp only [set_sh, countCode]; split_ifs <;> simp [upd1, h]
  | exit j rest a pos a' e i hpc ha hc hj ha' he hi =>
    refine ⟨set_thr_ne _ h _, by simp [upd1, h], ?_, ?_⟩ <;> · simp only [set_sh, countCode]; split_ifs <;> simp [upd1, h]
  | save => exact ⟨set_thr_ne _ h _, rfl, rfl, rfl⟩
  | refl => exact ⟨set_thr_ne _ h _, rfl, rfl, rfl⟩
  | forEnd => exact ⟨set_thr_ne _ h _, rfl, rfl, rfl⟩
  | sumLeak => exact ⟨set_thr_ne _ h _, rfl, rfl, rfl⟩
  | sum => exact ⟨set_thr_ne _ h _, rfl, rfl, rfl⟩
  | barrier => exact ⟨set_thr_ne _ h _, rfl, rfl, rfl⟩
  | singleFirst => exact ⟨set_thr_ne _ h _, rfl, rfl, rfl⟩
  | singleOther => exact ⟨set_thr_ne _ h _, rfl, rfl, rfl⟩
  | singleEnd => exact ⟨set_thr_ne _ h _, rfl, rfl, rfl⟩
  | copy sh1 sh2 hpc h1 h2 =>
    have hb := copy_base h1 h2
    exact ⟨set_thr_ne _ h _, congrFun hb.iexit u, congrFun hb.notEntered u, congrFun hb.notTransmitted u⟩

def Pc.isSave : Pc α → Bool
  | .save _ _ _ => true
  | _ => false

theorem recorded_of_not_save {D : Descr α} {th : Thr α} (h : th.pc.isSave = false) : recorded D th = exitsOf D th.hist := by
  unfold recorded
  split
  · next hpc => rw [hpc] at h; simp [Pc.isSave] at h
  · rfl

omit [CNum α] in
theorem held_of_not_save {pc : Pc α} (h : pc.isSave = false) : heldE pc = [] ∧ heldI pc = [] := by
  cases pc <;> simp_all [Pc.isSave, heldE, heldI]

/-- moving on without doing anything -/
theorem LInv.repc {C : Cfg α} {asg : Nat → List Nat} {t : Nat} {s s' : St α} (I : LInv C asg t s) (pc' : Pc α)
    (h1 : s'.thr t = { s.thr t with pc := pc' }) (h2 : s'.sh.iexit t = s.sh.iexit t)
    (h3 : s'.sh.notEntered t = s.sh.notEntered t) (h4 : s'.sh.notTransmitted t = s.sh.notTransmitted t)
    (hp : pending pc' = pending (s.thr t).pc) (n1 : (s.thr t).pc.isSave = false) (n2 : pc'.isSave = false)
    (hw : (s.thr t).pc.isWork = false)
    (hc : ∀ h p', Cont C t pc' (s.thr t).pos h p' → Cont C t (s.thr t).pc (s.thr t).pos h p') : LInv C asg t s' := by
  have hr : recorded C.D (s'.thr t) = recorded C.D (s.thr t) := by
    rw [recorded_of_not_save n1, recorded_of_not_save (by rw [h1]; exact n2), h1]
  have e1 := held_of_not_save n1
  have e2 := held_of_not_save n2
  constructor
  · intro h p' hh
    rw [h1] at hh ⊢
    exact I.cont h p' (hc h p' hh)
  · rw [h2, h1]; exact I.ie
  · rw [h3, h1]; exact I.ne
  · rw [h4, h1]; exact I.nt
  · rw [h1]; simp only [hp]; exact I.slots
  · rw [hr, h1]; exact I.wts
  · intro hl
    have := I.leakE hl
    rw [e1.1] at this
    rw [h1]; simp only [e2.1]; exact this
  · intro hl
    have := I.leakI hl
    rw [e1.2] at this
    rw [h1]; simp only [e2.2]; exact this
  · intro hl _
    rw [h1]
    exact I.flush hl hw
  · intro j a rest he
    rw [h1] at he
    simp only at he
    rw [he] at n2
    simp [Pc.isSave] at n2
  · rw [hr]; exact I.long
  · rw [h1]; exact I.tEq
  · rw [h1]; exact I.tEqI

omit [CNum α] in
theorem pending_next (rest : List Nat) : pending (nextPc (α := α) rest) = rest := by
  cases rest <;> rfl

theorem cont_next {C : Cfg α} {t : Nat} {rest : List Nat} {pos : Nat} {h : List (Nat × Attempt α)} {p' : Nat}
    (hc : Cont C t (nextPc rest) pos h p') : ThreadRun C.D (C.att t) rest pos h p' := by
  cases rest with
  | nil => obtain ⟨rfl, rfl⟩ := hc; exact .nil _
  | cons j js => exact hc

omit [CNum α] in
theorem nextPc_not_save (rest : List Nat) : (nextPc (α := α) rest).isSave = false := by
  cases rest <;> rfl

theorem exitsOf_append (D : Descr α) (h : List (Nat × Attempt α)) (j : Nat) (a : Attempt α) :
    exitsOf D (h ++ [(j, a)]) = exitsOf D h ++ if simCode D a = 1 then [(j, a)] else [] := by
  unfold exitsOf
  rw [List.filter_append]
  congr 1
  by_cases hc : simCode D a = 1 <;> simp [hc]

theorem extOf_append (D : Descr α) (ne : Nat) (h : List (Nat × Attempt α)) (j : Nat) (a : Attempt α) :
    extOf D ne (h ++ [(j, a)]) = extOf D ne h ++ if leaksCount D a then a.ph.ext.map (trunc ne) else [] := by
  simp [extOf]
theorem intOf_append (D : Descr α) (ne : Nat) (h : List (Nat × Attempt α)) (j : Nat) (a : Attempt α) :
    intOf D ne (h ++ [(j, a)]) = intOf D ne h ++ if leaksCount D a then a.ph.int.map (trunc ne) else [] := by
  simp [intOf]

omit [CNum α] in
theorem map_trunc_eq {ne : Nat} {l : List (Leak α)} (h : ∀ x ∈ l, trunc ne x = x) : l.map (trunc ne) = l := by
  conv_rhs => rw [← List.map_id l]
  exact List.map_congr_left h

omit [CNum α] in
theorem trunc_append {ne : Nat} {l : List (Leak α)} {m : List (Leak α)} {b : Prop} [Decidable b] (h : ∀ x ∈ l, trunc ne x = x) :
    ∀ x ∈ l ++ (if b then m.map (trunc ne) else []), trunc ne x = x := by
  intro x hx
  rcases List.mem_append.1 hx with hx | hx
  · exact h x hx
  · split_ifs at hx
    · obtain ⟨y, -, rfl⟩ := List.mem_map.1 hx
      simp
    · simp at hx

theorem leaksCount_exit {D : Descr α} {a : Attempt α} (h : simCode D a = 1) : leaksCount D a = true := by
  simp [leaksCount, h]

omit [CNum α] in
theorem perm_shuffle {A : Type} {x y a b : List A} (h : (x ++ ([] ++ y)).Perm b) : (x ++ ((a ++ y) ++ [])).Perm (b ++ a) := by
  simp only [List.nil_append, List.append_nil] at *
  calc x ++ (a ++ y) |>.Perm (x ++ (y ++ a)) := (List.perm_append_comm).append_left x
    _ = (x ++ y) ++ a := by simp
    _ |>.Perm (b ++ a) := h.append_right a

/-- **The local invariant holds in every reachable state, whatever the schedule.** -/
theorem local_inv {C : Cfg α} {asg : Nat → List Nat} {k : Nat} {s : St α} (hr : Reach C asg k s) (t : Nat) : LInv C asg t s := by
  induction hr generalizing t with
  | start =>
    have hn : (nextPc (α := α) (asg t)).isSave = false := nextPc_not_save _
    have e := held_of_not_save hn
    constructor
    · intro h p' hh; exact cont_next hh
    · rfl
    · rfl
    · rfl
    · simp [initSt, exitsOf, pending_next]
    · rw [recorded_of_not_save hn]; rfl
    · intro _; simp only [initSt, e.1]; simp [Buf.empty, extOf]
    · intro _; simp only [initSt, e.2]; simp [Buf.empty, intOf]
    · intro _ _; exact ⟨rfl, rfl⟩
    · intro j a rest he; simp only [initSt] at he; rw [he] at hn; simp [Pc.isSave] at hn
    · rw [recorded_of_not_save hn]; simp [initSt, exitsOf]
    · simp [initSt, Buf.empty]
    · simp [initSt, Buf.empty]
  | @step k s u s' _ ht hs ih =>
    have m := tstep_move hs
    by_cases hu : t ≠ u
    · obtain ⟨f1, f2, f3, f4⟩ := m.frame hu
      have I := ih t
      constructor
      · rw [f1]; exact I.cont
      · rw [f1, f2]; exact I.ie
      · rw [f1, f3]; exact I.ne
      · rw [f1, f4]; exact I.nt
      · rw [f1]; exact I.slots
      · rw [f1]; exact I.wts
      · rw [f1]; exact I.leakE
      · rw [f1]; exact I.leakI
      · rw [f1]; exact I.flush
      · rw [f1]; exact I.held
      · rw [f1]; exact I.long
      · rw [f1]; exact I.tEq
      · rw [f1]; exact I.tEqI
    · have hu : t = u := by simpa using hu
      subst hu
      have I := ih t
      cases m with
      | retry j rest a pos e i hpc ha hc hc' he hi =>
        have n1 : (s.thr t).pc.isSave = false := by rw [hpc]; rfl
        have hx : exitsOf C.D ((s.thr t).hist ++ [(j, a)]) = exitsOf C.D (s.thr t).hist := by
          rw [exitsOf_append, if_neg hc, List.append_nil]
        have e1 := held_of_not_save n1
        constructor
        · intro h p' hh
          simp only [set_thr] at hh ⊢
          rw [List.append_assoc]
          refine I.cont ((j, a) :: h) p' ?_
          rw [hpc]
          unfold Cont at hh ⊢
          dsimp only at hh ⊢
          cases hh with
          | cons hs hr => exact ThreadRun.cons (l := a :: _) (.retry ha hc hs) hr
        · simp only [set_sh, set_thr, hx]; exact I.ie
        · simp only [set_sh, set_thr, countCode, List.countP_append, ← I.ne]
          by_cases h2 : a.code = 2 <;> simp [h2, upd1]
        · simp only [set_sh, set_thr, countCode, List.countP_append, ← I.nt]
          by_cases h2 : a.code = 0 <;> simp [h2, upd1]
        · simp only [set_thr, hx]; have := I.slots; rw [hpc] at this; exact this
        · rw [recorded_of_not_save (by simp [Pc.isSave])]
          simp only [set_thr, hx]
          rw [I.wts, recorded_of_not_save n1]
        · intro hl
          have := I.leakE hl
          rw [e1.1] at this
          simp only [set_thr, heldE, List.map_nil, List.nil_append, extOf_append, he, hl, true_and] at this ⊢
          rw [← List.append_assoc]
          exact this.append_right _
        · intro hl
          have := I.leakI hl
          rw [e1.2] at this
          simp only [set_thr, heldI, List.map_nil, List.nil_append, intOf_append, hi, hl, true_and] at this ⊢
          rw [← List.append_assoc]
          exact this.append_right _
        · intro _ h; simp [Pc.isWork] at h
        · intro j' a' r' h; simp at h
        · rw [recorded_of_not_save (by simp [Pc.isSave])]
          simp only [set_thr, hx]
          rw [← recorded_of_not_save n1]; exact I.long
        · simp only [set_thr, he]; exact trunc_append I.tEq
        · simp only [set_thr, hi]; exact trunc_append I.tEqI
      | exit j rest a pos a' e i hpc ha hc hj ha' he hi =>
        have n1 : (s.thr t).pc.isSave = false := by rw [hpc]; rfl
        have hx : exitsOf C.D ((s.thr t).hist ++ [(j, a)]) = exitsOf C.D (s.thr t).hist ++ [(j, a)] := by
          rw [exitsOf_append, if_pos hc]
        have e1 := held_of_not_save n1
        have hrec : recorded C.D ((s.set t ({ s.thr t with pos := pos, hist := (s.thr t).hist ++ [(j, a)], extT := e, intT := i, pc := .save j a' rest },
            { countCode t a s.sh with iexit := upd1 s.sh.iexit t (s.sh.iexit t + 1), start := upd1 s.sh.start j (some (startRec a)) })).thr t) =
            recorded C.D (s.thr t) := by
          rw [recorded_of_not_save n1]
          simp [recorded, hx]
        constructor
        · intro h p' hh
          simp only [set_thr] at hh ⊢
          rw [List.append_assoc]
          refine I.cont ((j, a) :: h) p' ?_
          rw [hpc]
          unfold Cont at hh ⊢
          dsimp only at hh ⊢
          exact ThreadRun.cons (l := [a]) (.last ha hc) hh
        · simp only [set_sh, set_thr, hx, List.length_append, upd1, if_true, I.ie]; rfl
        · simp only [set_sh, set_thr, countCode, List.countP_append, ← I.ne]
          by_cases h2 : a.code = 2 <;> simp [h2, upd1]
        · simp only [set_sh, set_thr, countCode, List.countP_append, ← I.nt]
          by_cases h2 : a.code = 0 <;> simp [h2, upd1]
        · simp only [set_thr, hx]; have := I.slots; rw [hpc] at this; simpa [pending] using this
        · rw [hrec]; simp only [set_thr]; exact I.wts
        · intro hl
          have := I.leakE hl
          rw [e1.1] at this
          simp only [set_thr, heldE, extOf_append, he, if_pos hl, leaksCount_exit hc, if_true, ha', List.map_append]
          rw [map_trunc_eq (l := List.map (trunc C.ne) _) (by simp), map_trunc_eq I.tEq]
          exact perm_shuffle this
        · intro hl
          have := I.leakI hl
          rw [e1.2] at this
          simp only [set_thr, heldI, intOf_append, hi, if_pos hl, leaksCount_exit hc, if_true, ha', List.map_append]
          rw [map_trunc_eq (l := List.map (trunc C.ne) _) (by simp), map_trunc_eq I.tEqI]
          exact perm_shuffle this
        · intro hl _; simp only [set_thr, he, hi, if_pos hl]; exact ⟨trivial, trivial⟩
        · intro j' a'' r' h
          simp only [set_thr, Pc.save.injEq] at h
          obtain ⟨rfl, rfl, rfl⟩ := h
          refine ⟨exitsOf C.D (s.thr t).hist, a, by simp only [set_thr, hx], ?_⟩
          unfold SamePhoton
          rw [ha']
          split_ifs <;> rfl
        · rw [hrec]; exact I.long
        · simp only [set_thr, he]; split_ifs
          · simp
          · exact I.tEq
        · simp only [set_thr, hi]; split_ifs
          · simp
          · exact I.tEqI
      | save j rest a prog ws e i hpc hw hl hj he hi =>
        obtain ⟨l, a0, hex, hsame⟩ := I.held _ _ _ hpc
        have hw0 : wtsOf C.ne a0 = ws.take C.ne := by
          have : a.wts = a0.wts := by rw [hsame]
          unfold wtsOf; rw [← this, hw]
        have hrec : recorded C.D (s.thr t) = l := by simp [recorded, hpc, hex]
        constructor
        · intro h p' hh
          simp only [set_thr] at hh ⊢
          refine I.cont h p' ?_
          rw [hpc]; exact hh
        · simp only [set_sh, set_thr]; exact I.ie
        · simp only [set_sh, set_thr]; exact I.ne
        · simp only [set_sh, set_thr]; exact I.nt
        · simp only [set_thr]; have := I.slots; rw [hpc] at this; exact this
        · rw [recorded_of_not_save (by simp [Pc.isSave])]
          simp only [set_thr, hex, List.foldl_append, List.foldl_cons, List.foldl_nil, hw0, I.wts, hrec]
        · intro hk
          have := I.leakE hk
          have hf := (I.flush hk (by rw [hpc]; rfl)).1
          simp only [hpc, heldE, hf, List.append_nil] at this
          simp only [set_thr, heldE, hf, he, if_pos hk, List.map_nil, List.append_nil]
          exact this
        · intro hk
          have := I.leakI hk
          have hf := (I.flush hk (by rw [hpc]; rfl)).2
          simp only [hpc, heldI, hf, List.append_nil] at this
          simp only [set_thr, heldI, hf, hi, if_pos hk, List.map_nil, List.append_nil]
          exact this
        · intro hk _; simp only [set_thr]; exact I.flush hk (by rw [hpc]; rfl)
        · intro j' a' r' h; simp at h
        · rw [recorded_of_not_save (by simp [Pc.isSave])]
          simp only [set_thr, hex]
          intro x hx
          rcases List.mem_append.1 hx with hx | hx
          · exact I.long x (by rw [hrec]; exact hx)
          · simp only [List.mem_singleton] at hx
            subst hx
            simp only [hw0]
            simp [hl]
        · simp only [set_thr]; exact I.tEq
        · simp only [set_thr]; exact I.tEqI
      | refl n rest hpc =>
        refine I.repc (nextPc rest) (set_thr _ _ _) rfl rfl rfl ?_ ?_ (nextPc_not_save _) ?_ ?_
        · rw [hpc, pending_next]; rfl
        · rw [hpc]; rfl
        · rw [hpc]; rfl
        · intro h p' hh; rw [hpc]; exact cont_next hh
      | forEnd hpc hb => exact I.repc _ (set_thr _ _ _) rfl rfl rfl (by rw [hpc]; rfl) (by rw [hpc]; rfl) rfl (by rw [hpc]; rfl) (by rw [hpc]; intro h p' hh; exact hh)
      | sumLeak hpc hl => exact I.repc _ (set_thr _ _ _) rfl rfl rfl (by rw [hpc]; rfl) (by rw [hpc]; rfl) rfl (by rw [hpc]; rfl) (by rw [hpc]; intro h p' hh; exact hh)
      | sum hpc hl => exact I.repc _ (set_thr _ _ _) rfl rfl rfl (by rw [hpc]; rfl) (by rw [hpc]; rfl) rfl (by rw [hpc]; rfl) (by rw [hpc]; intro h p' hh; exact hh)
      | barrier hpc hb => exact I.repc _ (set_thr _ _ _) rfl rfl rfl (by rw [hpc]; rfl) (by rw [hpc]; rfl) rfl (by rw [hpc]; rfl) (by rw [hpc]; intro h p' hh; exact hh)
      | singleFirst hpc ha => exact I.repc _ (set_thr _ _ _) rfl rfl rfl (by rw [hpc]; rfl) (by rw [hpc]; rfl) rfl (by rw [hpc]; rfl) (by rw [hpc]; intro h p' hh; exact hh)
      | singleOther x hpc ha => exact I.repc _ (set_thr _ _ _) rfl rfl rfl (by rw [hpc]; rfl) (by rw [hpc]; rfl) rfl (by rw [hpc]; rfl) (by rw [hpc]; intro h p' hh; exact hh)
      | singleEnd hpc hb => exact I.repc _ (set_thr _ _ _) rfl rfl rfl (by rw [hpc]; rfl) (by rw [hpc]; rfl) rfl (by rw [hpc]; rfl) (by rw [hpc]; intro h p' hh; exact hh)
      | copy sh1 sh2 hpc h1 h2 =>
        have hb := copy_base h1 h2
        exact I.repc _ (set_thr _ _ _) (congrFun hb.iexit t) (congrFun hb.notEntered t) (congrFun hb.notTransmitted t) (by rw [hpc]; rfl) (by rw [hpc]; rfl) rfl (by rw [hpc]; rfl) (by rw [hpc]; intro h p' hh; exact hh)

end Polycap
