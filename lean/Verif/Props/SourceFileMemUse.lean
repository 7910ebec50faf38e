import Mathlib.Tactic.IntervalCases
import Verif.Props.SourceFileMemProps
import Verif.Props.SourceFileCut

/-!
# C96: findings and examples
-/
namespace Polycap
open CNum CM Mem
namespace FMem
set_option linter.unusedSectionVars false
set_option linter.unusedSimpArgs false
variable {α : Type} [CNum α]

theorem head_file (v : FileVals α) (hl : v.elems.length < 4294967296) (r : List (Tok α)) :
    headScan (v.head ++ r) = .ok (some ⟨v.sig_rough, v.src0, v.elems.length, r⟩) := by
  have hm : ((v.elems.length : Int) % 4294967296).toNat = v.elems.length := by omega
  simp only [headScan, FileVals.head, List.cons_append, List.nil_append, scanLf, scanLf2, id, scanInt, outside, Out.bind_ok,
    if_true, one_ne_zero, if_false, Int.reduceEq, OfNat.ofNat_ne_zero, OfNat.ofNat_ne_one, hm, FileVals.src0]

/-- **C96 (finding).**  If the profile is to be read from files and those are refused, the names read from the input stay allocated, as
does the `FILE` object of the input. -/
theorem source_file_names_lost (env : FileEnvM α) (v : FileVals α) (hl : v.elems.length < 4294967296)
    (ht : ¬ (v.shape.type = 0 ∨ v.shape.type = 1 ∨ v.shape.type = 2)) (r : List (Tok α)) (e e' : EArg) (name : String)
    (fs : String → Option (List (Tok α)))
    (hf : fs name = some (v.head ++ (v.elems.flatMap (fun zw => [.int zw.1, .real zw.2]) ++ (v.tail.take 6 ++ r))))
    (hr : ∀ h, (env.pff r e).run h = some ((none, e'), h)) (h : Heap (Block α)) (wf : h.WF) (al : AllocOk h) :
    ∃ h', (sourceFromFileM env (some name) fs e).run h = some ((none, e'), h') ∧
      ∀ x, h'.mem x = if x = h.next + 3 ∨ x = h.next + 7 ∨ x = h.next + 8 ∨ x = h.next + 9 then some (.raw 0) else h.mem x := by
  have hh := head_file v hl (v.elems.flatMap (fun zw => [.int zw.1, .real zw.2]) ++ (v.tail.take 6 ++ r))
  have hel := scanElems_all v.elems (v.tail.take 6 ++ r)
  simp only [FileVals.tail, List.take_succ_cons, List.take_zero, List.cons_append, List.nil_append] at hf hh hel
  generalize hL : (v.elems.flatMap (fun zw => [Tok.int zw.1, Tok.real zw.2]) ++ Tok.real v.density :: Tok.real v.e_start :: Tok.real v.e_final ::
    Tok.real v.delta_e :: Tok.int v.n_photons :: Tok.int v.shape.type :: r) = L at hf hh hel
  generalize hn : env.trunc ((v.e_final -. v.e_start) /. v.delta_e +. lit 1) = n
  have o : ∀ k, h.orc k = true := al
  have run : (sourceFromFileM env (some name) fs e).run (hp h.mem h.next [] h.orc) =
      some ((none, e'), hp h.mem h.next [none, none, none, some (.raw 0), none, none, none, some (.raw 0), some (.raw 0), some (.raw 0)] h.orc) := by
    have r1 : (sourceFromFileM env (some name) fs e).run (hp h.mem h.next [] h.orc) =
        (bodyM env ⟨v.sig_rough, v.src0, v.elems.length, L⟩ (some h.next) (some (h.next + 1)) (some (h.next + 2)) (some (h.next + 3)) e).run
        (hp h.mem h.next [some (.descr (lit 0) 0 (lit 0) 0 none none (lit 0) none),
          some (srcBlock (some h.next) (some (h.next + 2)) ⟨lit 0, lit 0, lit 0, lit 0, lit 0, lit 0, lit 0, lit 0, []⟩ 0 none), some .rng, some (.raw 0)] h.orc) := by
      simp [sourceFromFileM, run_bind, malloc_hp, o, hf, srcBlock, store_hp, hh, lift]
    rw [r1]
    have r2 : (bodyM env ⟨v.sig_rough, v.src0, v.elems.length, L⟩ (some h.next) (some (h.next + 1)) (some (h.next + 2)) (some (h.next + 3)) e).run
        (hp h.mem h.next [some (.descr (lit 0) 0 (lit 0) 0 none none (lit 0) none),
          some (srcBlock (some h.next) (some (h.next + 2)) ⟨lit 0, lit 0, lit 0, lit 0, lit 0, lit 0, lit 0, lit 0, []⟩ 0 none), some .rng, some (.raw 0)] h.orc) =
        (endM env v.src0 v.sig_rough v.elems.length v.density n (some h.next) (some (h.next + 1)) (some (h.next + 3)) (some (h.next + 4)) (some (h.next + 5))
          (some (h.next + 6)) (.int v.n_photons :: .int v.shape.type :: r) e).run
        (hp h.mem h.next (blocks7 (.descr v.sig_rough 0 (lit 0) v.elems.length (some (h.next + 4)) (some (h.next + 5)) v.density none)
          (srcBlock (some h.next) (some (h.next + 2)) v.src0 n (some (h.next + 6))) (some (.raw 0)) (v.elems.map (·.1)) (v.elems.map (fun zw => zw.2 /. lit 100))
          ((List.range n).map fun i => v.e_start +. ofInt (i : Int) *. v.delta_e)) h.orc) := by
      simp [bodyM, run_bind, store_hp, store_hp0, malloc_hp, o, hel, lift, storeInts, storeArr, load_hp, scanLf, scanMany, useAll, useVar, hn, srcBlock, blocks7]
    rw [r2]
    have r3 : ∀ D S f is ws es, (profileM env v.shape.type r e).run (hp h.mem h.next (blocks7 D S f is ws es) h.orc) =
        some ((none, e', env.names r), hp h.mem h.next (blocks7 D S f is ws es ++ [some (.raw 0), some (.raw 0), some (.raw 0)]) h.orc) := by
      intro D S f is ws es
      simp [profileM, ht, lineM, run_bind, malloc_hp, o, blocks7, hr]
    simp only [endM, scanInt, outside, lift_ok, useVar, id]
    rw [run_bind_some (r3 _ _ _ _ _ _)]
    simp only [if_true]
    rw [run_bind_some (free_7 _ _ _ _ _ _ _ _ _ _ _ _ _ _ _)]
    rfl
  refine ⟨hp h.mem h.next [none, none, none, some (.raw 0), none, none, none, some (.raw 0), some (.raw 0), some (.raw 0)] h.orc, ?_, ?_⟩
  · rw [← run, ← hp_nil h wf]
  · intro x
    simp only [hp, lay]
    by_cases hx : x < h.next
    · rw [if_pos hx, if_neg (by omega)]
    · rw [if_neg hx, wf x (by omega)]
      obtain ⟨i, rfl⟩ : ∃ i, x = h.next + i := ⟨x - h.next, by omega⟩
      by_cases hi : i < 10
      · interval_cases i <;> simp
      · rw [if_neg (by omega), List.getElem?_eq_none (by simp; omega)]
        rfl

/-! ## Examples -/

/-- a reader whose profile files are always refused -/
noncomputable def exEnv : FileEnvM ℝ := ⟨fun x => ⌊x⌋₊, fun _ => (0, 0, 0), fun _ => [], fun _ e => pure (none, e.set .io)⟩

theorem exEnv_ok : FilesOk exEnv (fun _ e => (none, e.set .io)) := fun _ e _ _ _ =>
  Or.inl ⟨[], e.set .io, rfl, by simp, set_reports e _, Or.inl rfl⟩

/-- no memory in use, all of it available -/
def empty : Heap (Block ℝ) := ⟨fun _ => none, 0, fun _ => true⟩

theorem empty_wf : empty.WF ∧ AllocOk empty := ⟨fun _ _ => rfl, fun _ => rfl⟩

/-- a file that is accepted: the hypotheses of `source_file_accepted` are met, and the object reads back -/
example : ∃ s e' h', (sourceFromFileM exEnv (some "in") (fun _ => some (exFile 100).tokens) (some none)).run empty = some ((some s, e'), h') ∧
    ∃ w, readSource h' (some s) = some w ∧ w.d_source = 0 ∧ w.descr.n_cap = 1 := by
  have := source_file_result exEnv _ exEnv_ok (some "in") (fun _ => some (exFile 100).tokens) (some none) empty empty_wf.1 empty_wf.2
  obtain ⟨D, oa, hv, -, -, hc, -⟩ := exFile_result (exEnv.value (fun _ e => (none, e.set .io))) 100 (by simp [FileEnvM.value, exEnv])
  simp only [sourceFromFile, hv] at this
  obtain ⟨s, h', r, rd, -⟩ := this
  exact ⟨s, _, h', r, _, rd, rfl, hc⟩

/-- a file that is refused and stays open: a word in place of the first number -/
example : ∃ h', (sourceFromFileM exEnv (some "in") (fun _ => some [.junk]) (some none)).run empty = some ((none, some (some .io)), h') ∧
    h'.mem ≠ empty.mem := by
  have := source_file_result exEnv _ exEnv_ok (some "in") (fun _ => some [.junk]) (some none) empty empty_wf.1 empty_wf.2
  simp only [sourceFromFile, sourceFromTokens, scanLf, if_true, EArg.set_empty] at this
  obtain ⟨h', r⟩ := this
  refine ⟨h', r, fun hm => ?_⟩
  have := (source_file_left_open exEnv _ exEnv_ok _ _ _ _ empty h' empty_wf.1 empty_wf.2 r).1.mp hm [.junk] rfl
  simp [fileProfile, headScan, scanLf] at this
end FMem
end Polycap
