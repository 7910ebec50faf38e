import Verif.Props.SimMemOps

/-!
# Memory of a simulation (C83): a thread on the heap does what the thread on values does
-/
namespace Polycap.SMem
open CNum CM Mem Memo LMem

variable {α : Type} [CNum α]

/-- where the thread is, on the heap and on values -/
inductive PcR : MPc α → Pc α → Prop
  | work (j : Nat) (rest : List Nat) : PcR (.work j rest) (.work j rest)
  | save (j : Nat) (P : Photon α) (a : Attempt α) (rest : List Nat) (e i : List (Leak α)) (h : a.ph = { P with ext := e, int := i }) :
      PcR (.save j P rest) (.save j a rest)
  | refl (n : Int) (rest : List Nat) : PcR (.refl n rest) (.refl n rest)
  | forEnd : PcR .forEnd .forEnd
  | sum : PcR .sum .sum
  | barrier : PcR .barrier .barrier
  | single : PcR .single .single
  | singleEnd : PcR .singleEnd .singleEnd
  | copy : PcR .copy .copy
  | done : PcR .done .done

/-- the photon and its weights, between the end of the do-while loop and their release -/
def PhR (ne : Nat) (th : MThr α) : Pc α → List (Piece (Block α)) → Prop
  | .save _ a _, x => ∃ p b xs q, th.photon = some p ∧ th.wtsT = some (some q) ∧ x = [phP ne p b xs a.ph, blkP q (WBlk ne a.wts)]
  | .refl _ _, x => ∃ p b xs q P w, th.photon = some p ∧ th.wtsT = some (some q) ∧ x = [phP ne p b xs P, blkP q w]
  | .done, _ => False
  | _, x => x = []

def Pc.working : Pc α → Prop
  | .work _ _ => True
  | _ => False

/-- what a thread that has not ended owns -/
structure Owns (ne : Nat) (th : MThr α) (v : Thr α) (w g : Nat) (pe pi pet pit : Piece (Block α)) (x : List (Piece (Block α))) : Prop where
  w : th.weights = some w
  g : th.rng = some g
  ext : BufR ne th.ext v.ext pe
  int : BufR ne th.int v.int pi
  extT : BufR ne th.extT v.extT pet
  intT : BufR ne th.intT v.intT pit
  ph : PhR ne th v.pc x

/-- the pieces of the heap -/
def ownsP (v : Thr α) (w g : Nat) (pe pi pet pit : Piece (Block α)) (x : List (Piece (Block α))) : List (Piece (Block α)) :=
  x ++ [pet, pit, blkP w (.doubles v.weights), blkP g .rng, pe, pi]

/-- a thread on the heap, and the same thread on values -/
structure TRel (ne : Nat) (leak : Bool) (th : MThr α) (v : Thr α) (ps : List (Piece (Block α))) : Prop where
  pos : th.pos = v.pos
  prog : th.prog = v.prog
  pc : PcR th.pc v.pc
  len : v.weights.length = ne
  emptyE : v.extT.items = [] → th.extT = MBuf.empty
  emptyI : v.intT.items = [] → th.intT = MBuf.empty
  out : leak = false ∨ ¬ Pc.working v.pc → v.extT.items = [] ∧ v.intT.items = []
  own : (v.pc = .done ∧ ps = []) ∨ ∃ w g pe pi pet pit x, Owns ne th v w g pe pi pet pit x ∧ ps = ownsP v w g pe pi pet pit x

/-- running a thread on the heap does what it does on values -/
def Agrees (m0 : Nat → Option (Block α)) (ne : Nat) (leak : Bool) (rs : List (Piece (Block α))) (run : Out ((MThr α × Shared α) × Heap (Block α))) :
    Out (Thr α × Shared α) → Prop
  | .ok y => ∃ h' th' ps', run = .ok ((th', y.2), h') ∧ Good h' ∧ TRel ne leak th' y.1 ps' ∧ Sep m0 (ps' ++ rs) h'.mem
  | .ub => run = .ub
  | .fuel => run = .fuel

theorem getPhoton_bare {S : Src α} {D : Descr α} {u : Nat → α} {fuel n : Nat} {x : SrcPhoton α × Nat} (h : getPhoton S D u fuel n = .ok x) :
    x.1.photon.ext = [] ∧ x.1.photon.int = [] := by
  unfold getPhoton at h
  simp only at h
  obtain ⟨a, -, h⟩ := Out.bind_eq_ok.mp h
  split at h
  · cases h
  · rename_i P hP
    injection h with h
    subst h
    unfold photonNew at hP
    split at hP
    · cases hP
    split at hP
    · cases hP
    · injection hP with hP; subst hP; exact ⟨rfl, rfl⟩

theorem launch_touched {lib : Xray α} {D : Descr α} {leak : Bool} {fuel k : Nat} {P : Photon α} {es : List α} (hes : es ≠ [])
    (hb : es.any energyBad = false) {c : Int} {w : WOut α} {P' : Option (Photon α)}
    (h : launch lib (some D) leak fuel k (some P) (some es) true = .ok (c, w, P')) : w.isUntouched = false := by
  have hg : (es.isEmpty || es.any energyBad || !true) = false := by cases es <;> simp_all
  simp only [launch, hg, Bool.false_eq_true, if_false] at h
  obtain ⟨⟨c', w', Q⟩, hx, h⟩ := Out.bind_eq_ok.mp h
  injection h with h; injection h with h1 h; injection h with h2 h; subst h2
  unfold launchBody at hx
  simp only at hx
  split at hx
  · injection hx with hx; injection hx with _ hx; injection hx with hx; subst hx; rfl
  · split at hx
    · split at hx
      · obtain ⟨_, -, hx⟩ := Out.bind_eq_ok.mp hx
        injection hx with hx; injection hx with _ hx; injection hx with hx; subst hx; rfl
      · split at hx
        · obtain ⟨_, -, hx⟩ := Out.bind_eq_ok.mp hx
          rw [(launchWall_codes _ _ _ _ _ _ _ _ _ hx).2]; rfl
        · injection hx with hx; injection hx with _ hx; injection hx with hx; subst hx; rfl
    · obtain ⟨_, _, _, _, _, _, _, _, h6, _⟩ := launchInside_inv _ _ _ _ _ _ _ _ _ hx
      rw [h6]; rfl

/-! ## The do-while loop -/

/-- the leaks of a photon that will be replaced are kept -/
theorem keep_piece {m0 : Nat → Option (Block α)} {h : Heap (Block α)} (g : Good h) {ne pp : Nat} {b : MBuf} {v : Buf α} {p : Piece (Block α)}
    {pb : Ph} {xs : Bool → List (Nat × Nat)} {P : Photon α} {rs : List (Piece (Block α))} (R : BufR ne b v p) (s : Sep m0 (p :: rs) h.mem)
    (hm : phP ne pp pb xs P ∈ rs) (he : v.items = [] → b = MBuf.empty) (t : Bool) :
    ∃ h' b' v' p', (keepLeaksM ne b (pb.arr t) (pb.cnt t)).run h = some (b', h') ∧ v.appendIf ne (leaksOf P t) = .ok v' ∧ Good h' ∧
      BufR ne b' v' p' ∧ (v'.items = [] → b' = MBuf.empty) ∧ Sep m0 (p' :: rs) h'.mem := by
  have o : Own h.mem ne pp false pb xs (fun _ => 0) P := s.holds (phP ne pp pb xs P) (by simp [hm])
  have hc : pb.cnt t = (leaksOf P t).length := o.cnt t
  unfold keepLeaksM Buf.appendIf
  by_cases h0 : (leaksOf P t).length > 0
  · rw [if_pos (by omega), if_pos h0, append_ok (o.wts t)]
    obtain ⟨h1, b1, p1, r1, g1, G1, s1⟩ := grow_piece g R s (pb.cnt t)
    obtain ⟨x, hx⟩ : ∃ x, pb.arr t = some x := by
      cases hq : pb.arr t with
      | some x => exact ⟨x, rfl⟩
      | none =>
        have := ((o.arrs t).null hq).1
        rw [← (o.arrs t).leaks.length_eq, this] at h0; simp at h0
    rw [hc] at G1
    obtain ⟨h2, p2, r2, g2, R2, s2⟩ := fill_piece g1 G1 s1 hm (a := pb.arr t) (fun _ => ⟨x, hx, phP_holds hx⟩)
      (fun j y hy => by have := ptrs_at (xs t) [] j y hy; simpa using this) (o.wts t)
    refine ⟨h2, b1, _, p2, ?_, rfl, g2, R2, fun e => ?_, s2⟩
    · rw [run_bind_some r1, hc, run_bind_some r2]; rfl
    · simp at e; rw [e.2] at h0; simp at h0
  · rw [if_neg (by omega), if_neg h0]
    exact ⟨h, b, v, p, rfl, rfl, g, R, he, s⟩

omit [CNum α] in
theorem BufR.drained {ne : Nat} {b : MBuf} {v : Buf α} {p : Piece (Block α)} (R : BufR ne b v p) (h : v.items = []) (hb : b = MBuf.empty) :
    p = bufP none [] [] 0 := by
  obtain ⟨xs, r, rfl, hc⟩ := R.own
  subst hb
  simp [MBuf.empty] at hc
  rw [hc.1, hc.2, h]; rfl

theorem work_agrees (A : Prm α) (hes : A.S.energies ≠ []) (hb : A.S.energies.any energyBad = false) {m0 : Nat → Option (Block α)} {h : Heap (Block α)}
    (g : Good h) {t j : Nat} {rest : List Nat} {th : MThr α} {v : Thr α} {ps rs : List (Piece (Block α))} {sh : Shared α}
    (R : TRel A.S.energies.length A.a.leak th v ps) (hpc : v.pc = .work j rest) (s : Sep m0 (ps ++ rs) h.mem) :
    Agrees m0 A.S.energies.length A.a.leak rs ((workM A t j rest th sh).run h)
      (A.cfg.att t v.pos >>= fun x => workStep A.cfg t j rest v sh x.1 x.2) := by
  obtain ⟨pos, prog, pc, len, emE, emI, out, own⟩ := R
  rcases own with ⟨h1, -⟩ | ⟨w, gg, pe, pi, pet, pit, x, O, rfl⟩
  · rw [hpc] at h1; cases h1
  obtain ⟨Ow, Og, Re, Ri, Ret, Rit, Oph⟩ := O
  rw [hpc] at Oph
  have Oph : x = [] := Oph
  subst Oph
  set ne := A.S.energies.length with hne
  have s0 : Sep m0 (pet :: pit :: (([blkP w (.doubles v.weights), blkP gg .rng, pe, pi] : List (Piece (Block α))) ++ rs)) h.mem := s
  set o4 := ([blkP w (.doubles v.weights), blkP gg .rng, pe, pi] : List (Piece (Block α))) ++ rs with ho4
  have eatt : A.cfg.att t v.pos = attempt A.lib A.S A.D A.a.leak A.fuel A.k (A.u t) v.pos := rfl
  rw [eatt]
  unfold attempt workM
  rw [pos]
  cases hg : getPhoton A.S A.D (A.u t) A.fuel v.pos with
  | ub => exact HM.bind_ofOut_ub
  | fuel => exact HM.bind_ofOut_fuel
  | ok x =>
  rw [HM.bind_ofOut rfl, Out.bind_ok]
  obtain ⟨he, hi⟩ := getPhoton_bare hg
  obtain ⟨h1, p, r1, g1, s1⟩ := malloc_piece g (Ph.blk ⟨none, none, 0, 0, none, none, none, none⟩) s0
  rw [HM.bind_ofCM r1, if_neg (by simp)]
  have L := launch_piece g1 A.lib A.D A.a.leak A.fuel A.k A.S.energies hes hb he hi s1
  cases hl : launch A.lib (some A.D) A.a.leak A.fuel A.k (some x.1.photon) (some A.S.energies) true with
  | ub => rw [hl] at L; exact HM.run_bind_ub L
  | fuel => rw [hl] at L; exact HM.run_bind_fuel L
  | ok y =>
  obtain ⟨c, wo, P'⟩ := y
  rw [hl] at L
  cases P' with
  | none => exact L.elim
  | some P =>
  obtain ⟨h2, q, pb, xs, r2, g2, s2⟩ := L
  rw [HM.run_bind_ok r2]
  simp only [Out.bind_ok]
  have hw := launch_touched hes hb hl
  have eC : ∀ w', simCode A.D (⟨c, x.1.src, P, w'⟩ : Attempt α) = simCode A.D ⟨c, x.1.src, P, .untouched⟩ := fun _ => rfl
  have eD : A.cfg.D = A.D := rfl
  have eL : A.cfg.leak = A.a.leak := rfl
  have eN : A.cfg.ne = ne := rfl
  unfold workStep
  simp only [eD, eC wo]
  by_cases h1 : simCode A.D (⟨c, x.1.src, P, .untouched⟩ : Attempt α) = 1
  · rw [if_pos h1, if_pos h1]
    by_cases h3 : A.cfg.n ≤ j
    · rw [if_pos h3, if_pos h3]; rfl
    rw [if_neg h3, if_neg h3]
    -- the photon came out
    have fin : ∀ {h' : Heap (Block α)} {e' i' : MBuf} {ve vi : Buf α} {pe' pi' : Piece (Block α)} {pb' xs'} {Q : Photon α}, Good h' → BufR ne e' ve pe' →
        BufR ne i' vi pi' → ve.items = [] → vi.items = [] → e' = MBuf.empty → i' = MBuf.empty → (∃ e i, Q = { P with ext := e, int := i }) →
        Sep m0 (phP ne p pb' xs' Q :: blkP q (WBlk ne wo) :: pe' :: pi' :: o4) h'.mem → ∃ ps', TRel ne A.a.leak
          { th with pos := x.2, photon := some p, wtsT := (some (some q) : Option Ptr).or th.wtsT, extT := e', intT := i', pc := .save j P rest }
          { v with pos := x.2, hist := v.hist ++ [(j, ⟨c, x.1.src, P, wo⟩)], extT := ve, intT := vi, pc := .save j ⟨c, x.1.src, Q, wo⟩ rest } ps' ∧
          Sep m0 (ps' ++ rs) h'.mem := by
      intro h' e' i' ve vi pe' pi' pb' xs' Q g' R1 R2 z1 z2 z3 z4 hQ s'
      obtain ⟨e, i, hQ⟩ := hQ
      exact ⟨_, ⟨rfl, prog, .save _ _ _ _ e i hQ, len, fun _ => z3, fun _ => z4, fun _ => ⟨z1, z2⟩,
        .inr ⟨w, gg, pe, pi, pe', pi', _, ⟨Ow, Og, Re, Ri, R1, R2, p, pb', xs', q, rfl, rfl, rfl⟩, rfl⟩⟩, s'⟩
    by_cases hlk : A.a.leak = true
    · have hwE : ∀ l ∈ v.extT.items, l.weight.length = ne := Ret.wts
      have hwI : ∀ l ∈ v.intT.items, l.weight.length = ne := Rit.wts
      have s3 := (Sep.at [phP ne p pb xs P, blkP q (WBlk ne wo)] pet (pit :: o4)).mp s2
      obtain ⟨h4, e', pe', pb4, xs4, r4, g4, R4, z4, z4', s4⟩ := pass_piece g2 Ret s3 true
      have s5 := Sep.swap ((Sep.at [pit, pe'] _ _).mp ((Sep.at [pe', phP ne p pb4 xs4 (addTo true P v.extT.items), blkP q (WBlk ne wo)] pit o4).mp s4))
      obtain ⟨h5, i', pi', pb5, xs5, r5, g5, R5, z5, z5', s5⟩ := pass_piece g4 Rit s5 false
      have hE : v.extT.drain.items = [] := by
        unfold Buf.drain; split
        · rfl
        · apply List.length_eq_zero_iff.mp; omega
      have hI : v.intT.drain.items = [] := by
        unfold Buf.drain; split
        · rfl
        · apply List.length_eq_zero_iff.mp; omega
      have hE' : e' = MBuf.empty := by
        by_cases hz : v.extT.items = []
        · rw [z4 hz]; exact emE hz
        · exact z4' hz
      have hI' : i' = MBuf.empty := by
        by_cases hz : v.intT.items = []
        · rw [z5 hz]; exact emI hz
        · exact z5' hz
      have s6 : Sep m0 (phP ne p pb5 xs5 (addTo false (addTo true P v.extT.items) v.intT.items) :: blkP q (WBlk ne wo) :: pe' :: pi' :: o4) h5.mem := by
        have a1 := (Sep.at [pi', phP ne p pb5 xs5 (addTo false (addTo true P v.extT.items) v.intT.items)] pe' (blkP q (WBlk ne wo) :: o4)).mp s5
        have a2 := (Sep.at [pe', pi', phP ne p pb5 xs5 (addTo false (addTo true P v.extT.items) v.intT.items)] (blkP q (WBlk ne wo)) o4).mp a1
        exact (Sep.at [blkP q (WBlk ne wo), pe', pi'] (phP ne p pb5 xs5 (addTo false (addTo true P v.extT.items) v.intT.items)) o4).mp a2
      have hv : passLeaks A.cfg ⟨c, x.1.src, P, wo⟩ { v with pos := x.2, hist := v.hist ++ [(j, ⟨c, x.1.src, P, wo⟩)] } =
          .ok (⟨c, x.1.src, { P with ext := P.ext ++ v.extT.items, int := P.int ++ v.intT.items }, wo⟩,
            { v with pos := x.2, hist := v.hist ++ [(j, ⟨c, x.1.src, P, wo⟩)], extT := v.extT.drain, intT := v.intT.drain }) := by
        unfold passLeaks
        rw [if_pos (by rw [eL]; exact hlk), eN, copyLeaks_id hwE, copyLeaks_id hwI]; rfl
      obtain ⟨ps', T, s7⟩ := fin g5 R4 R5 hE hI hE' hI' ⟨_, _, rfl⟩ s6
      rw [hv, Out.bind_ok]
      rw [if_pos hlk, if_pos hlk]
      refine ⟨h5, _, ps', ?_, g5, T, s7⟩
      rw [HM.bind_ofCM r4, HM.bind_ofCM r5]; rfl
    · have hlk' : A.a.leak = false := by simpa using hlk
      obtain ⟨o1, o2⟩ := out (.inl hlk')
      obtain ⟨ps', T, s7⟩ := fin g2 Ret Rit o1 o2 (emE o1) (emI o2) ⟨P.ext, P.int, rfl⟩ s2
      have hv : passLeaks A.cfg ⟨c, x.1.src, P, wo⟩ { v with pos := x.2, hist := v.hist ++ [(j, ⟨c, x.1.src, P, wo⟩)] } =
          .ok (⟨c, x.1.src, P, wo⟩, { v with pos := x.2, hist := v.hist ++ [(j, ⟨c, x.1.src, P, wo⟩)] }) := by
        unfold passLeaks
        rw [if_neg (by rw [eL]; exact hlk)]
      rw [hv, Out.bind_ok]
      rw [if_neg hlk, if_neg hlk]
      exact ⟨h2, _, ps', rfl, g2, T, s7⟩
  · rw [if_neg h1, if_neg h1]
    have gp := getPh_piece (ne := ne) (p := p) (b := pb) (xs := xs) (P := P) s2 (by simp [hne])
    rw [HM.bind_ofCM gp.1]
    have body : ∃ h3 e' i' ve vi pe' pi',
        (if A.a.leak = true ∧ (simCode A.D (⟨c, x.1.src, P, .untouched⟩ : Attempt α) = 0 ∨ simCode A.D (⟨c, x.1.src, P, .untouched⟩ : Attempt α) = 2)
          then keepLeaksM ne th.extT pb.ext pb.nE else pure th.extT).run h2 = some (e', h3) ∧ ∃ h4,
        (if A.a.leak = true ∧ (simCode A.D (⟨c, x.1.src, P, .untouched⟩ : Attempt α) = 0 ∨ simCode A.D (⟨c, x.1.src, P, .untouched⟩ : Attempt α) = 2)
          then keepLeaksM ne th.intT pb.int pb.nI else pure th.intT).run h3 = some (i', h4) ∧
        keepLeaks A.cfg (simCode A.D (⟨c, x.1.src, P, .untouched⟩ : Attempt α)) ⟨c, x.1.src, P, wo⟩
          { v with pos := x.2, hist := v.hist ++ [(j, ⟨c, x.1.src, P, wo⟩)] } =
          .ok { v with pos := x.2, hist := v.hist ++ [(j, ⟨c, x.1.src, P, wo⟩)], extT := ve, intT := vi } ∧ Good h4 ∧ BufR ne e' ve pe' ∧ BufR ne i' vi pi' ∧
        (ve.items = [] → e' = MBuf.empty) ∧ (vi.items = [] → i' = MBuf.empty) ∧ (A.a.leak = false → ve.items = [] ∧ vi.items = []) ∧
        Sep m0 (phP ne p pb xs P :: blkP q (WBlk ne wo) :: pe' :: pi' :: o4) h4.mem := by
      unfold keepLeaks
      by_cases hk : A.a.leak = true ∧ (simCode A.D (⟨c, x.1.src, P, .untouched⟩ : Attempt α) = 0 ∨ simCode A.D (⟨c, x.1.src, P, .untouched⟩ : Attempt α) = 2)
      · have s3 := (Sep.at [phP ne p pb xs P, blkP q (WBlk ne wo)] pet (pit :: o4)).mp s2
        obtain ⟨h3, e', ve, pe', r3, q3, g3, R3, z3, s3⟩ := keep_piece g2 Ret s3 (pp := p) (pb := pb) (xs := xs) (P := P) (by simp) emE true
        have s4 := (Sep.at [pe', phP ne p pb xs P, blkP q (WBlk ne wo)] pit o4).mp s3
        obtain ⟨h4, i', vi, pi', r4, q4, g4, R4, z4, s4⟩ := keep_piece g3 Rit s4 (pp := p) (pb := pb) (xs := xs) (P := P) (by simp) emI false
        refine ⟨h3, e', i', ve, vi, pe', pi', ?_, h4, ?_, ?_, g4, R3, R4, z3, z4, fun hx => ?_, ?_⟩
        · rw [if_pos hk]; exact r3
        · rw [if_pos hk]; exact r4
        · rw [if_pos (by rw [eL]; exact hk)]
          have q3' : v.extT.appendIf A.cfg.ne P.ext = .ok ve := q3
          have q4' : v.intT.appendIf A.cfg.ne P.int = .ok vi := q4
          simp only [q3', q4', Out.bind_ok]
        · rw [hx] at hk; simp at hk
        · have a1 := (Sep.at [pi', pe'] (phP ne p pb xs P) (blkP q (WBlk ne wo) :: o4)).mp s4
          have a2 := (Sep.at [phP ne p pb xs P, pi', pe'] (blkP q (WBlk ne wo)) o4).mp a1
          exact (Sep.swap a2).perm (.cons _ (.cons _ (.swap _ _ _)))
      · refine ⟨h2, th.extT, th.intT, v.extT, v.intT, pet, pit, ?_, h2, ?_, ?_, g2, Ret, Rit, emE, emI, fun hx => out (.inl hx), s2⟩
        · rw [if_neg hk]; rfl
        · rw [if_neg hk]; rfl
        · rw [if_neg (by rw [eL]; exact hk)]
    obtain ⟨h3, e', i', ve, vi, pe', pi', r3, h4, r4, hv, g4, Re', Ri', z3, z4, z5, s4⟩ := body
    rw [HM.bind_ofCM r3, HM.bind_ofCM r4, hv, Out.bind_ok]
    obtain ⟨h5, r5, g5, s5, hp5⟩ := freePh_piece g4 s4
    rw [HM.bind_ofCM r5]
    obtain ⟨h6, r6, g6, s6⟩ := free_piece g5 s5
    have r6' : (freeW ((some (some q) : Option Ptr).or th.wtsT)).run h5 = some ((), h6) := r6
    rw [HM.bind_ofCM r6']
    simp only [hw, Bool.false_eq_true, if_false]
    by_cases hr : simRetry (simCode A.D (⟨c, x.1.src, P, .untouched⟩ : Attempt α)) = true
    · rw [if_pos hr, if_pos hr]
      refine ⟨h6, _, _, rfl, g6, ⟨rfl, prog, .work _ _, len, z3, z4, fun hx => z5 (hx.resolve_right (by simp [Pc.working])),
        .inr ⟨w, gg, pe, pi, pe', pi', [], ⟨Ow, Og, Re, Ri, Re', Ri', rfl⟩, rfl⟩⟩, s6⟩
    · rw [if_neg hr, if_neg hr]
      refine HM.run_bind_ub (HM.run_ofCM_ub ?_)
      have hpf : p ∈ feet [phP ne p pb xs P] := by rw [feet_ph]; exact mem_foot.mpr (by simp)
      have hp6 : h6.mem p = none := by
        rw [s6.rest p, s4.new p (by rw [feet_cons]; exact List.mem_append_left _ (by simpa [feet] using hpf))]
        intro hx
        refine Sep.disj' (ps := [phP ne p pb xs P]) (qs := blkP q (WBlk ne wo) :: pe' :: pi' :: o4) s4 hpf ?_
        rw [feet_cons]; exact List.mem_append_right _ hx
      simp [getPh, run_bind, run_load, hp6]

/-! ## After the loop -/

/-- reading the returned weights -/
def wRead (ne : Nat) (h : Heap (Block α)) : WOut α → Option (List α × Heap (Block α))
  | .filled ws => if ws.length < ne then none else some (ws.take ne, h)
  | _ => none

omit [CNum α] in
theorem loadW {h : Heap (Block α)} {q ne : Nat} {wo : WOut α} (hq : h.mem q = some (WBlk ne wo)) :
    (loadArr (some q) ne).run h = wRead ne h wo := by
  cases wo with
  | untouched => simp [loadArr, run_bind, run_load, hq, WBlk, wRead]
  | uninit => simp [loadArr, run_bind, run_load, hq, WBlk, wRead]
  | filled ws =>
    by_cases hn : ws.length < ne
    · simp [loadArr, run_bind, run_load, hq, WBlk, hn, Nat.not_le.mpr hn, wRead]
    · simp [loadArr, run_bind, run_load, hq, WBlk, hn, Nat.not_lt.mp hn, wRead]

theorem save_agrees (A : Prm α) {m0 : Nat → Option (Block α)} {h : Heap (Block α)} (g : Good h) {t j : Nat} {P : Photon α} {a : Attempt α} {rest : List Nat}
    {th : MThr α} {v : Thr α} {ps rs : List (Piece (Block α))} {sh : Shared α} (R : TRel A.S.energies.length A.a.leak th v ps)
    (hmp : th.pc = .save j P rest) (hpc : v.pc = .save j a rest) (s : Sep m0 (ps ++ rs) h.mem) :
    Agrees m0 A.S.energies.length A.a.leak rs ((saveM A t j P rest th sh).run h) (saveStep A.cfg t j a rest v sh) := by
  obtain ⟨pos, prog, pc, len, emE, emI, out, own⟩ := R
  rcases own with ⟨h1, -⟩ | ⟨w, gg, pe, pi, pet, pit, x, O, rfl⟩
  · rw [hpc] at h1; cases h1
  obtain ⟨Ow, Og, Re, Ri, Ret, Rit, Oph⟩ := O
  rw [hpc] at Oph
  obtain ⟨p, b, xs, q, hp, hq, rfl⟩ := Oph
  obtain ⟨z1, z2⟩ := out (.inr (by rw [hpc]; exact id))
  rw [hmp, hpc] at pc
  cases pc with
  | save _ _ _ _ e i hP =>
  set ne := A.S.energies.length with hne
  have eL : A.cfg.leak = A.a.leak := rfl
  have eN : A.cfg.ne = ne := rfl
  have eD : A.cfg.D = A.D := rfl
  have eX : exitRec A.D.prof a.ph = exitRec A.D.prof P := by rw [hP]; rfl
  have eI : a.ph.i_refl = P.i_refl := by rw [hP]
  have s0 : Sep m0 ([phP ne p b xs a.ph, blkP q (WBlk ne a.wts), pet, pit] ++ blkP w (.doubles v.weights) :: (blkP gg .rng :: pe :: pi :: rs)) h.mem := s
  unfold saveM saveStep
  rw [prog]
  split
  · rfl
  simp only [hq, Option.getD_some, eN, eD, eX, eI]
  have hW := loadW (h := h) (q := q) (ne := ne) (wo := a.wts) (s0.holds (blkP q (WBlk ne a.wts)) (by simp))
  cases hwo : a.wts with
  | untouched => simp only [hwo] at hW; exact HM.run_bind_ub (HM.run_ofCM_ub hW)
  | uninit => simp only [hwo] at hW; exact HM.run_bind_ub (HM.run_ofCM_ub hW)
  | filled ws =>
  simp only [hwo, wRead] at hW ⊢
  by_cases hn : ws.length < ne
  · rw [if_pos hn] at hW
    rw [if_pos (.inl hn)]
    exact HM.run_bind_ub (HM.run_ofCM_ub hW)
  rw [if_neg hn] at hW
  rw [HM.bind_ofCM hW]
  by_cases hj : A.cfg.n ≤ j
  · rw [if_pos hj, if_pos (.inr hj)]; rfl
  rw [if_neg hj, if_neg (show ¬ (ws.length < ne ∨ A.cfg.n ≤ j) from fun hx => hx.elim hn hj)]
  have s1 := (Sep.at [phP ne p b xs a.ph, blkP q (WBlk ne a.wts), pet, pit] (blkP w (.doubles v.weights)) (blkP gg .rng :: pe :: pi :: rs)).mp s0
  have r1 := load_piece s1 (n := ne) (by omega)
  have et : v.weights.take ne = v.weights := by rw [← len, List.take_length]
  rw [et] at r1
  rw [Ow, HM.bind_ofCM r1]
  have hwt : (ws.take ne).length = ne := by rw [List.length_take]; omega
  obtain ⟨h2, r2, g2, s2⟩ := store_piece g s1 (xs := List.zipWith (· +. ·) v.weights (ws.take ne)) (.inr ⟨_, rfl, by simp⟩)
  rw [HM.bind_ofCM r2]
  have hlen : (List.zipWith (· +. ·) v.weights (ws.take ne)).length = ne := by rw [List.length_zipWith, len, hwt]; simp
  by_cases hlk : A.a.leak = true
  · rw [if_pos hlk, if_pos (by rw [eL]; exact hlk)]
    have gp := getPh_piece (ne := ne) (p := p) (b := b) (xs := xs) (P := a.ph) s2 (by simp)
    obtain ⟨gp1, ⟨gp2, gp3⟩, gp4, gp5, gp6, gp7⟩ := gp
    rw [hp, HM.bind_ofCM gp1, append_ok gp4, Out.bind_ok, append_ok gp5, Out.bind_ok]
    have s3 := (Sep.at [blkP w (.doubles (List.zipWith (· +. ·) v.weights (ws.take ne))), phP ne p b xs a.ph, blkP q (WBlk ne a.wts), pet, pit, blkP gg .rng] pe (pi :: rs)).mp s2
    obtain ⟨h3, be, pe3, r3, g3, G3, s3⟩ := grow_piece g2 Re s3 b.nE
    have s4 := (Sep.at [pe3, blkP w (.doubles (List.zipWith (· +. ·) v.weights (ws.take ne))), phP ne p b xs a.ph, blkP q (WBlk ne a.wts), pet, pit, blkP gg .rng] pi rs).mp s3
    obtain ⟨h4, bi, pi4, r4, g4, G4, s4⟩ := grow_piece g3 Ri s4 b.nI
    rw [gp2] at G3
    rw [gp3] at G4
    obtain ⟨h5, pe5, r5, g5, R5, s5⟩ := fill_piece g4 G3 s4.swap (src := phP ne p b xs a.ph) (by simp) (a := b.ext)
      (fun h0 => (gp6 h0).imp fun y hy => ⟨hy, phP_holds (s := true) hy⟩) (fun j y hy => by have := ptrs_at (xs true) [] j y hy; simpa using this) gp4
    obtain ⟨h6, pi6, r6, g6, R6, s6⟩ := fill_piece g5 G4 s5.swap (src := phP ne p b xs a.ph) (by simp) (a := b.int)
      (fun h0 => (gp7 h0).imp fun y hy => ⟨hy, phP_holds (s := false) hy⟩) (fun j y hy => by have := ptrs_at (xs false) [] j y hy; simpa using this) gp5
    rw [HM.bind_ofCM r3, HM.bind_ofCM r4]
    rw [gp2, gp3, HM.bind_ofCM r5, HM.bind_ofCM r6]
    refine ⟨h6, _, _, rfl, g6, ⟨pos, rfl, .refl _ _, hlen, emE, emI, fun _ => ⟨z1, z2⟩,
      .inr ⟨w, gg, pe5, pi6, pet, pit, [phP ne p b xs a.ph, blkP q (WBlk ne a.wts)], ⟨rfl, Og, R5, R6, Ret, Rit, p, b, xs, q, a.ph, _, rfl, rfl, rfl⟩, rfl⟩⟩, ?_⟩
    have a1 := (Sep.at [pe5, blkP w (.doubles (List.zipWith (· +. ·) v.weights (ws.take ne))), phP ne p b xs a.ph, blkP q (WBlk ne a.wts), pet, pit, blkP gg .rng] pi6 rs).mpr s6
    have a2 := (Sep.at [blkP w (.doubles (List.zipWith (· +. ·) v.weights (ws.take ne))), phP ne p b xs a.ph, blkP q (WBlk ne a.wts), pet, pit, blkP gg .rng] pe5 (pi6 :: rs)).mpr a1
    exact (Sep.at [phP ne p b xs a.ph, blkP q (WBlk ne a.wts), pet, pit] (blkP w (.doubles (List.zipWith (· +. ·) v.weights (ws.take ne)))) (blkP gg .rng :: pe5 :: pi6 :: rs)).mpr a2
  · rw [if_neg hlk, if_neg (by rw [eL]; exact hlk)]
    refine ⟨h2, _, _, rfl, g2, ⟨pos, rfl, .refl _ _, hlen, emE, emI, fun _ => ⟨z1, z2⟩,
      .inr ⟨w, gg, pe, pi, pet, pit, [phP ne p b xs a.ph, blkP q (WBlk ne a.wts)], ⟨rfl, Og, Re, Ri, Ret, Rit, p, b, xs, q, a.ph, _, hp, rfl, rfl⟩, rfl⟩⟩, ?_⟩
    exact (Sep.at [phP ne p b xs a.ph, blkP q (WBlk ne a.wts), pet, pit] (blkP w (.doubles (List.zipWith (· +. ·) v.weights (ws.take ne)))) (blkP gg .rng :: pe :: pi :: rs)).mpr s2

omit [CNum α] in
/-- a thread between the steps that touch its photon -/
theorem TRel.quiet {ne : Nat} {leak : Bool} {th : MThr α} {v : Thr α} {ps : List (Piece (Block α))} (R : TRel ne leak th v ps) (mp : MPc α) (vp : Pc α)
    (h1 : ∀ x, PhR ne th v.pc x → x = []) (h2 : ∀ th', PhR ne th' vp []) (h3 : PcR mp vp) (h4 : v.pc ≠ .done) (h5 : ¬ Pc.working v.pc) :
    TRel ne leak { th with pc := mp } { v with pc := vp } ps := by
  obtain ⟨pos, prog, pc, len, emE, emI, out, own⟩ := R
  refine ⟨pos, prog, h3, len, emE, emI, fun _ => out (.inr h5), ?_⟩
  rcases own with ⟨hx, -⟩ | ⟨w, gg, pe, pi, pet, pit, x, O, rfl⟩
  · exact absurd hx h4
  obtain ⟨Ow, Og, Re, Ri, Ret, Rit, Oph⟩ := O
  obtain rfl := h1 _ Oph
  exact .inr ⟨w, gg, pe, pi, pet, pit, [], ⟨Ow, Og, Re, Ri, Ret, Rit, h2 _⟩, rfl⟩

omit [CNum α] in
/-- the photon is released -/
theorem refl_run {ne : Nat} {leak : Bool} {m0 : Nat → Option (Block α)} {h : Heap (Block α)} (g : Good h) {n : Int} {rest : List Nat}
    {th : MThr α} {v : Thr α} {ps rs : List (Piece (Block α))} (R : TRel ne leak th v ps) (hpc : v.pc = .refl n rest) (s : Sep m0 (ps ++ rs) h.mem) :
    ∃ h1 h2 ps', (photonFree th.photon).run h = some ((), h1) ∧ (freeW th.wtsT).run h1 = some ((), h2) ∧ Good h2 ∧
      TRel ne leak { th with pc := nextPcM rest } { v with pc := nextPc rest } ps' ∧ Sep m0 (ps' ++ rs) h2.mem := by
  obtain ⟨pos, prog, pc, len, emE, emI, out, own⟩ := R
  rcases own with ⟨h1, -⟩ | ⟨w, gg, pe, pi, pet, pit, x, O, rfl⟩
  · rw [hpc] at h1; cases h1
  obtain ⟨Ow, Og, Re, Ri, Ret, Rit, Oph⟩ := O
  rw [hpc] at Oph
  obtain ⟨p, b, xs, q, P, wb, hp, hq, rfl⟩ := Oph
  obtain ⟨h1, r1, g1, s1, -⟩ := freePh_piece g s
  obtain ⟨h2, r2, g2, s2⟩ := free_piece g1 s1
  refine ⟨h1, h2, _, by rw [hp]; exact r1, by rw [hq]; exact r2, g2, ⟨pos, prog, ?_, len, emE, emI, fun _ => out (.inr (by rw [hpc]; exact id)),
    .inr ⟨w, gg, pe, pi, pet, pit, [], ⟨Ow, Og, Re, Ri, Ret, Rit, ?_⟩, rfl⟩⟩, s2⟩
  · cases rest with
    | nil => exact .forEnd
    | cons j l => exact .work _ _
  · cases rest with
    | nil => exact rfl
    | cons j l => exact rfl

omit [CNum α] in
/-- the end of a thread: everything it owns is released -/
theorem end_run {ne : Nat} {leak : Bool} {m0 : Nat → Option (Block α)} {h : Heap (Block α)} (g : Good h) {th : MThr α} {v : Thr α}
    {ps rs : List (Piece (Block α))} (R : TRel ne leak th v ps) (h1 : ∀ x, PhR ne th v.pc x → x = []) (h4 : v.pc ≠ .done) (h5 : ¬ Pc.working v.pc)
    (s : Sep m0 (ps ++ rs) h.mem) :
    ∃ h', (endM th).run h = some ((), h') ∧ Good h' ∧ TRel ne leak { th with pc := .done } { v with pc := .done } [] ∧ Sep m0 ([] ++ rs) h'.mem := by
  obtain ⟨pos, prog, pc, len, emE, emI, out, own⟩ := R
  rcases own with ⟨hx, -⟩ | ⟨w, gg, pe, pi, pet, pit, x, O, rfl⟩
  · exact absurd hx h4
  obtain ⟨Ow, Og, Re, Ri, Ret, Rit, Oph⟩ := O
  obtain rfl := h1 _ Oph
  obtain ⟨z1, z2⟩ := out (.inr h5)
  obtain rfl := Ret.drained z1 (emE z1)
  obtain rfl := Rit.drained z2 (emI z2)
  have s0 : Sep m0 (blkP w (.doubles v.weights) :: blkP gg .rng :: pe :: pi :: rs) h.mem := emptyBuf.mp (emptyBuf.mp s)
  have s1 := (Sep.at [blkP w (.doubles v.weights), blkP gg .rng] pe (pi :: rs)).mp s0
  obtain ⟨xe, re, rfl, -⟩ := Re.own
  obtain ⟨xi, ri, rfl, -⟩ := Ri.own
  obtain ⟨h2, r2, g2, s2⟩ := freeBuf_piece g s1
  obtain ⟨h3, r3, g3, s3⟩ := freeBuf_piece g2 ((Sep.at [blkP w (.doubles v.weights), blkP gg .rng] _ rs).mp s2)
  obtain ⟨h6, r6, g6, s6⟩ := free_piece g3 s3.swap
  obtain ⟨h7, r7, g7, s7⟩ := free_piece g6 s6
  refine ⟨h7, ?_, g7, ⟨pos, prog, .done, len, emE, emI, fun _ => ⟨z1, z2⟩, .inl ⟨rfl, rfl⟩⟩, s7⟩
  unfold endM
  rw [Re.n, Ri.n, Og, Ow, run_bind_some r2, run_bind_some r3, run_bind_some r6]
  exact r7

omit [CNum α] in
/-- copying the leaks to the result arrays -/
theorem putAll_run {ne : Nat} {put : Shared α → Leak α → Out (Shared α)} {h : Heap (Block α)} {a : Nat} {sps : List Ptr} (ha : h.mem a = some (.ptrs sps)) :
    ∀ {ls : List (Leak α)} {xs : List (Nat × Nat)} {i : Nat} {sh : Shared α}, List.Forall₂ (fun x l => LeakAt h.mem x (lv l)) xs ls →
    (∀ (j : Nat) y, xs[j]? = some y → sps[i + j]? = some (some y.1)) → (∀ l ∈ ls, l.weight.length = ne) →
    (putAllM ne put (some a) i ls.length sh).run h = putAll put sh ls >>= fun s => .ok (s, h)
  | [], xs, i, sh, _, _, _ => rfl
  | l :: ls, [], i, sh, hf, _, _ => by cases hf
  | l :: ls, x :: xs, i, sh, hf, hp, hl => by
    obtain ⟨⟨hx1, hx2⟩, hf⟩ := List.forall₂_cons.mp hf
    simp only [lv] at hx1 hx2
    have hln : l.weight.length = ne := hl l (by simp)
    have hp0 : sps[i]? = some (some x.1) := hp 0 x rfl
    have e : (readLeak ne (some a) i).run h = some (l, h) := by
      have e1 : (ptrAt (some a) i).run h = some (some x.1, h) := by simp [ptrAt, run_bind, run_load, ha, hp0]
      have e2 : (load (some x.1)).run h = some (Block.leak l.coords l.dir l.elecv l.weight.length (some x.2) l.n_refl, h) := by simp only [run_load, hx1]
      have e3 : (loadArr (some x.2) ne).run h = some (l.weight, h) := by
        simp [loadArr, run_bind, run_load, hx2, ← hln]
      unfold readLeak
      rw [run_bind_some e1, run_bind_some e2]
      simp only
      rw [run_bind_some e3]; rfl
    rw [List.length_cons, putAllM, HM.bind_ofCM e, putAll]
    cases hv : put sh l with
    | ub => rfl
    | fuel => rfl
    | ok sh' =>
      rw [HM.bind_ofOut rfl, Out.bind_ok]
      exact putAll_run ha hf (fun j z hz => by rw [show i + 1 + j = i + (j + 1) by omega]; exact hp (j + 1) z hz) (fun l hl' => hl l (by simp [hl']))

omit [CNum α] in
theorem putBuf_run {m0 : Nat → Option (Block α)} {h : Heap (Block α)} {ne : Nat} {put : Shared α → Leak α → Out (Shared α)} {b : MBuf} {v : Buf α}
    {p : Piece (Block α)} {ps : List (Piece (Block α))} (R : BufR ne b v p) (s : Sep m0 ps h.mem) (hm : p ∈ ps) (sh : Shared α) :
    (putAllM ne put b.q 0 b.n sh).run h = putAll put sh v.items >>= fun s => .ok (s, h) := by
  obtain ⟨xs, r, rfl, hc⟩ := R.own
  have L : LArr h.mem b.q xs v.items r := s.holds _ hm
  rw [R.n]
  cases hq : b.q with
  | none =>
    have : v.items = [] := by
      have := L.leaks
      rw [(L.null hq).1] at this
      exact List.forall₂_nil_left_iff.mp this
    rw [this]; rfl
  | some a => exact putAll_run (L.arr a hq) L.leaks (fun j y hy => ptrs_at xs _ j y hy) R.wts

end Polycap.SMem
