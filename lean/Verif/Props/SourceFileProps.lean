import Mathlib.Analysis.Real.Pi.Bounds
import Verif.SourceFile
import Verif.Props.DescriptionProps
import Verif.Props.ProfileGeom

/-!
# C50 and the input file: `polycap_source_new_from_file`
-/
namespace Polycap
open CNum
variable {α : Type} [CNum α]
set_option linter.unusedSimpArgs false

/-! ## Specification vocabulary -/

/-- the values of a complete input file, in file order (`type` one of the analytic shapes) -/
structure FileVals (α : Type) where
  sig_rough : α
  d_source : α
  src_x : α
  src_y : α
  src_sigx : α
  src_sigy : α
  src_shiftx : α
  src_shifty : α
  hor_pol : α
  elems : List (Int × α)
  density : α
  e_start : α
  e_final : α
  delta_e : α
  n_photons : Int
  shape : ProfArgs α
  n_cap : Int

/-- the input file that holds these values -/
def FileVals.tokens (v : FileVals α) : List (Tok α) :=
  [.real v.sig_rough, .real v.d_source, .real v.src_x, .real v.src_y, .real v.src_sigx, .real v.src_sigy, .real v.src_shiftx,
   .real v.src_shifty, .real v.hor_pol, .int v.elems.length] ++
  v.elems.flatMap (fun zw => [.int zw.1, .real zw.2]) ++
  [.real v.density, .real v.e_start, .real v.e_final, .real v.delta_e, .int v.n_photons, .int v.shape.type,
   .real v.shape.length, .real v.shape.rad_ext_upstream, .real v.shape.rad_ext_downstream, .real v.shape.rad_int_upstream,
   .real v.shape.rad_int_downstream, .real v.shape.focal_dist_upstream, .real v.shape.focal_dist_downstream, .int v.n_cap]

/-- the source described by the values -/
def FileVals.src (v : FileVals α) (n : Nat) : Src α :=
  ⟨v.d_source, v.src_x, v.src_y, v.src_sigx, v.src_sigy, v.src_shiftx, v.src_shifty, v.hor_pol,
    (List.range n).map fun i => v.e_start +. ofInt (i : Int) *. v.delta_e⟩

theorem scanElems_all (el : List (Int × α)) (r : List (Tok α)) :
    scanElems el.length (el.flatMap (fun zw => [.int zw.1, .real zw.2]) ++ r) =
      .ok (el.map (·.1), el.map (fun zw => zw.2 /. lit 100), r) := by
  induction el with
  | nil => rfl
  | cons zw el ih =>
    simp only [List.length_cons, List.flatMap_cons, List.cons_append, List.nil_append, scanElems, scanInt, outside, Out.bind_ok,
      scanLf, useVar, if_true]
    rw [ih]
    rfl

/-- **C50 / input file.**  A complete file is read member by member: the result is exactly what the final checks make of the source,
the composition (percentages divided by 100), the shape and the number of capillaries written in the file; a shape that
`polycap_profile_new` refuses gives NULL and INVALID_ARGUMENT. -/
theorem file_reads (env : FileEnv α) (v : FileVals α) (e : EArg) (hl : v.elems.length < 4294967296)
    (ht : v.shape.type = 0 ∨ v.shape.type = 1 ∨ v.shape.type = 2) :
    sourceFromTokens env v.tokens e =
      match profileValue env.fit v.shape with
      | none => .ok (none, e.set .invalidArgument)
      | some p => .ok (fileFinish (v.src (env.trunc ((v.e_final -. v.e_start) /. v.delta_e +. lit 1)))
          ⟨v.sig_rough, v.n_cap, v.elems.map (·.1), v.elems.map (fun zw => zw.2 /. lit 100), v.density, p⟩ e) := by
  have hm : ((v.elems.length : Int) % 4294967296).toNat = v.elems.length := by omega
  simp only [sourceFromTokens, FileVals.tokens, List.cons_append, List.nil_append, scanLf, scanLf2, id, scanInt, outside, Out.bind_ok,
    if_true, one_ne_zero, if_false, Int.reduceEq, OfNat.ofNat_ne_zero, OfNat.ofNat_ne_one, hm, fileBody]
  rw [scanElems_all]
  simp only [Out.bind_ok, scanLf, scanMany, if_true, useAll, useVar, id, scanInt, outside, scanProfile]
  rw [if_pos ht]
  simp only [scanMany, scanLf, if_true, useAll, useVar, Out.bind_ok]
  cases hp : profileValue env.fit v.shape with
  | none => simp
  | some p => simp [scanInt, outside, FileVals.src]

/-- What the reader does guarantee about a source it returns. -/
structure FileContract (S : Src α) (D : Descr α) : Prop where
  d : (S.d_source <. lit 0) = false
  x : (S.src_x <. lit 0) = false
  y : (S.src_y <. lit 0) = false
  n : S.energies ≠ []
  range : ∀ e ∈ S.energies, (e <. lit 1) = false ∧ (e >. lit 100) = false
  ncap : 1 ≤ D.n_cap
  z : D.iz ≠ [] ∧ ∀ z ∈ D.iz, 1 ≤ z ∧ z ≤ 94
  density : (D.density <. lit 0) = false
  profile : validate D.prof D.n_cap = 1

theorem fileFinish_contract (S S' : Src α) (D D' : Descr α) (oa : α) (e e' : EArg) (h : fileFinish S D e = (some (S', D', oa), e')) :
    FileContract S' D' ∧ S' = S := by
  simp only [fileFinish] at h
  split_ifs at h with h1 h2
  · simp at h
  · simp at h
  · injection h with h h3
    injection h with h
    injection h with h4 h
    injection h with h5 h6
    subst h4
    simp only [fileRejects, Bool.not_eq_true, Bool.or_eq_false_iff, decide_eq_false_iff_not, List.isEmpty_eq_false_iff, List.any_eq_false] at h1
    obtain ⟨⟨⟨⟨⟨⟨⟨⟨⟨⟨c1, c2⟩, c3⟩, c4⟩, c5⟩, c6⟩, c7⟩, c8⟩, c9⟩, c10⟩, c11⟩ := h1
    rw [← h5]
    refine ⟨⟨c1, c2, c3, c4, ?_, by simp only; omega, ⟨c9, ?_⟩, c11, by simpa [validateE] using h2⟩, rfl⟩
    · intro x hx; simpa [energyBad] using c5 x hx
    · intro z hz
      have := c10 z hz
      simp only [decide_eq_true_eq, not_or] at this
      omega

/-- **C50 (the part that holds).**  Every source returned for any input file (complete or not, analytic or file shapes) has
non-negative distance and sizes, at least one energy, all energies in [1,100] keV, at least one capillary, at least one element with
atomic number in 1..94, non-negative density and a feasible profile.  Missing with respect to `polycap_source_new` and
`polycap_description_new`: distance, sizes and density may be zero, the polarisation and the roughness are not checked, one
capillary is accepted and the weights need not add up to one (see `file_contract_false`, `file_bad_weights_returned`). -/
theorem file_contract_partial (env : FileEnv α) (ts : List (Tok α)) (e e' : EArg) (S : Src α) (D : Descr α) (oa : α)
    (h : sourceFromTokens env ts e = .ok (some (S, D, oa), e')) : FileContract S D := by
  simp only [sourceFromTokens] at h
  split_ifs at h <;> try (injection h with h; injection h with h; cases h)
  rw [Out.bind_eq_ok] at h
  obtain ⟨n, _, h⟩ := h
  split_ifs at h <;> try (injection h with h; injection h with h; cases h)
  simp only [fileBody] at h
  rw [Out.bind_eq_ok] at h
  obtain ⟨el, _, h⟩ := h
  rw [Out.bind_eq_ok] at h
  obtain ⟨vs, _, h⟩ := h
  split at h
  · rw [Out.bind_eq_ok] at h
    obtain ⟨np, _, h⟩ := h
    rw [Out.bind_eq_ok] at h
    obtain ⟨ty, _, h⟩ := h
    rw [Out.bind_eq_ok] at h
    obtain ⟨type, _, h⟩ := h
    rw [Out.bind_eq_ok] at h
    obtain ⟨pr, _, h⟩ := h
    split at h
    · injection h with h; injection h with h; cases h
    · rw [Out.bind_eq_ok] at h
      obtain ⟨nc, _, h⟩ := h
      injection h with h
      exact (fileFinish_contract _ _ _ _ _ _ _ h).1
  · cases h

/-- NULL file name and unreadable file are reported. -/
theorem file_missing (env : FileEnv α) (fs : String → Option (List (Tok α))) :
    sourceFromFile env none fs (some none) = .ok (none, some (some .invalidArgument)) ∧
    ∀ f, fs f = none → sourceFromFile env (some f) fs (some none) = .ok (none, some (some .io)) := by
  refine ⟨rfl, fun f hf => ?_⟩
  simp [sourceFromFile, hf]

/-- A token that is no number among the first ten values gives NULL and IO. -/
theorem file_junk_reported (env : FileEnv α) (xs : List α) (hl : xs.length ≤ 9) (hk : xs.length ≠ 3 ∧ xs.length ≠ 5 ∧ xs.length ≠ 7)
    (r : List (Tok α)) : sourceFromTokens env (xs.map Tok.real ++ .junk :: r) (some none) = .ok (none, some (some .io)) := by
  match xs, hl, hk with
  | [], _, _ => rfl
  | [a], _, _ => rfl
  | [a, b], _, _ => rfl
  | [a, b, c, d], _, _ => rfl
  | [a, b, c, d, f, g], _, _ => rfl
  | [a, b, c, d, f, g, i, j], _, _ => rfl
  | [a, b, c, d, f, g, i, j, k], _, _ => rfl
  | _ :: _ :: _ :: _ :: _ :: _ :: _ :: _ :: _ :: _ :: _, hl, _ => simp at hl; omega

/-- Finding: end of file is not detected; an input file that stops before the energy range makes the reader use uninitialised variables
(for example an empty file, or one that stops after the source members). -/
theorem file_truncated_ub (env : FileEnv α) (xs : List α) (hl : xs.length ≤ 9) (e : EArg) :
    sourceFromTokens env (xs.map Tok.real) e = .ub := by
  match xs, hl with
  | [], _ => rfl
  | [a], _ => rfl
  | [a, b], _ => rfl
  | [a, b, c], _ => rfl
  | [a, b, c, d], _ => rfl
  | [a, b, c, d, f], _ => rfl
  | [a, b, c, d, f, g], _ => rfl
  | [a, b, c, d, f, g, i], _ => rfl
  | [a, b, c, d, f, g, i, j], _ => rfl
  | [a, b, c, d, f, g, i, j, k], _ => rfl
  | _ :: _ :: _ :: _ :: _ :: _ :: _ :: _ :: _ :: _ :: _, hl => simp at hl; omega


/-! ## Concrete files -/

/-- a file with roughness -1, distance 0, source size 0, polarisation 5, one element with weight `w` percent, density 0, one energy of
10 keV, a conical optic and a single capillary -/
noncomputable def exFile (w : ℝ) : FileVals ℝ :=
  ⟨-1, 0, 0, 0, -1, -1, 0, 0, 5, [(14, w)], 0, 10, 10, 1, 1000, ⟨0, 9, 1, 1, 0.1, 0.1, 100, 100⟩, 1⟩

theorem exFile_profile (env : FileEnv ℝ) (w : ℝ) :
    profileValue env.fit (exFile w).shape = some ⟨profNmax, profZ (exFile w).shape, profCap (exFile w).shape, profExtConical (exFile w).shape⟩ := by
  have h : profRejects (exFile w).shape = false := by
    rw [profRejects_real]
    norm_num [exFile]
  have h2 : profExt env.fit (exFile w).shape = some (profExtConical (exFile w).shape) := by
    simp [profExt, exFile]
  simp [profileValue, h, h2]

theorem exFile_result (env : FileEnv ℝ) (w : ℝ) (ht : env.trunc 1 = 1) :
    ∃ D oa, sourceFromTokens env (exFile w).tokens (some none) =
      .ok (some ((exFile w).src 1, D, oa), (checkWeight [w / 100] (some none)).2) ∧ D.sig_rough = -1 ∧ D.density = 0 ∧ D.n_cap = 1 ∧
      D.wi = (checkWeight [w / 100] (some none)).1 := by
  rw [file_reads env (exFile w) (some none) (by simp [exFile]) (by simp [exFile]), exFile_profile]
  simp only
  have e1 : ((exFile w).e_final -. (exFile w).e_start) /. (exFile w).delta_e +. lit 1 = 1 := by simp [exFile]
  rw [e1, ht]
  have hc : ∀ i, profCap (exFile w).shape i = 0.1 := by intro i; simp [profCap, exFile]
  have hx : ∀ i, profExtConical (exFile w).shape i = 1 := by intro i; simp [profExtConical, exFile]
  have hv : validate (⟨profNmax, profZ (exFile w).shape, profCap (exFile w).shape, profExtConical (exFile w).shape⟩ : Profile ℝ) 1 = 1 := by
    apply ((validate_mono_iff _ 1 (by norm_num) (by norm_num)).1).mpr
    intro i _
    simp only [hc, hx]
    norm_num
  have hsh : nShells (α := ℝ) 1 = 0 := (nShells_zero_iff 1 (by norm_num)).mpr (by norm_num)
  have hoa : openArea (profCap (exFile w).shape 0) (profExtConical (exFile w).shape 0) 1 = 0.1 * 0.1 * mpi / (3 * Real.sin (mpi / 3)) := by
    rw [hc, hx]
    simp only [openArea, nCapFull, hsh, real_mul, real_div, real_add, real_lit, real_sin, real_ofInt]
    push_cast
    norm_num
  have hp : (3:ℝ) < mpi := by simp only [mpi, real_lit]; norm_num
  have hp' : (mpi:ℝ) < 32/10 := by simp only [mpi, real_lit]; norm_num
  have hs : 1 / 2 < Real.sin (mpi / 3) := by
    have h3 : Real.pi / 6 < mpi / 3 := by have := Real.pi_le_four; linarith
    have := Real.sin_lt_sin_of_lt_of_le_pi_div_two (x := Real.pi / 6) (y := mpi / 3) (by linarith [Real.pi_pos]) (by have := Real.pi_gt_three; linarith) h3
    rwa [Real.sin_pi_div_six] at this
  have h0 : 0 ≤ 0.1 * 0.1 * mpi / (3 * Real.sin (mpi / 3)) := by positivity
  have h1 : 0.1 * 0.1 * mpi / (3 * Real.sin (mpi / 3)) ≤ 1 := by
    rw [div_le_one (by positivity)]
    nlinarith
  have hrej : ∀ wi, fileRejects ((exFile w).src 1) ⟨(exFile w).sig_rough, (exFile w).n_cap, (exFile w).elems.map (·.1), wi, (exFile w).density,
      ⟨profNmax, profZ (exFile w).shape, profCap (exFile w).shape, profExtConical (exFile w).shape⟩⟩ (0.1 * 0.1 * mpi / (3 * Real.sin (mpi / 3))) = false := by
    intro wi
    simp only [fileRejects, gt, real_lt, real_lit, Rat.cast_zero, Bool.or_eq_false_iff, decide_eq_false_iff_not, not_lt]
    refine ⟨⟨⟨⟨⟨⟨⟨⟨⟨⟨?_, ?_⟩, ?_⟩, ?_⟩, ?_⟩, ?_⟩, h0⟩, by exact_mod_cast h1⟩, ?_⟩, ?_⟩, ?_⟩
    · simp [FileVals.src, exFile]
    · simp [FileVals.src, exFile]
    · simp [FileVals.src, exFile]
    · simp [FileVals.src, exFile]
    · simp [FileVals.src, exFile, energyBad]; norm_num
    · simp [exFile]
    · simp [exFile]
    · simp [exFile]
    · simp [exFile]
  have hw : (exFile w).elems.map (fun zw => zw.2 /. lit 100) = [w / 100] := by simp [exFile]
  refine ⟨⟨-1, 1, [14], (checkWeight [w / 100] (some none)).1, 0, ⟨profNmax, profZ (exFile w).shape, profCap (exFile w).shape, profExtConical (exFile w).shape⟩⟩,
    0.1 * 0.1 * mpi / (3 * Real.sin (mpi / 3)), ?_, rfl, rfl, rfl, rfl⟩
  simp only [fileFinish, hw]
  rw [show (exFile w).n_cap = 1 from rfl] at hrej ⊢
  rw [hoa, hrej]
  simp only [Bool.false_eq_true, if_false, validateE, hv]
  norm_num
  exact ⟨rfl, ⟨w, rfl⟩, rfl⟩

/-- Finding (C50): `polycap_source_new_from_file` returns, without any error, a source with distance 0, size 0 and polarisation 5 in front
of an optic of density 0 and roughness -1, although `polycap_source_new` and `polycap_description_new` refuse every one of these. -/
theorem file_contract_false (env : FileEnv ℝ) (ht : env.trunc 1 = 1) :
    ∃ ts S D oa, sourceFromTokens env ts (some none) = .ok (some (S, D, oa), some none) ∧
      S.d_source = 0 ∧ S.src_x = 0 ∧ S.hor_pol = 5 ∧ D.density = 0 ∧ D.sig_rough < 0 ∧ D.n_cap = 1 := by
  obtain ⟨D, oa, h, h1, h2, h3, _⟩ := exFile_result env 100 ht
  have hc : (checkWeight [(100:ℝ) / 100] (some none)).2 = some none := by
    simp only [checkWeight, sumFrom, real_add, real_lit, gt, real_lt, real_beq]
    norm_num
  rw [hc] at h
  exact ⟨_, _, D, oa, h, rfl, rfl, rfl, h2, by rw [h1]; norm_num, h3⟩

/-- Finding (C50, C11): with weights that do not add up to 100 percent the reader reports an error *and* returns a source. -/
theorem file_bad_weights_returned (env : FileEnv ℝ) (ht : env.trunc 1 = 1) :
    ∃ ts S D oa, sourceFromTokens env ts (some none) = .ok (some (S, D, oa), some (some .invalidArgument)) ∧ D.wi = [1 / 2] := by
  obtain ⟨D, oa, h, _, _, _, h4⟩ := exFile_result env 50 ht
  have hc : (checkWeight [(50:ℝ) / 100] (some none)) = ([1 / 2], some (some .invalidArgument)) := by
    simp only [checkWeight, sumFrom, real_add, real_lit, gt, real_lt, real_beq]
    norm_num
  rw [hc] at h h4
  exact ⟨_, _, D, oa, h, h4⟩

/-- Finding (composition): weights given as fractions of 1 percent steps that add up to more than 100 percent of 100 (for example an element
with 10000) are divided by 100 twice and accepted. -/
theorem file_double_percent (env : FileEnv ℝ) (ht : env.trunc 1 = 1) :
    ∃ D oa, sourceFromTokens env (exFile 10000).tokens (some none) = .ok (some ((exFile 10000).src 1, D, oa), some none) ∧ D.wi = [1] := by
  obtain ⟨D, oa, h, _, _, _, h4⟩ := exFile_result env 10000 ht
  have hc : (checkWeight [(10000:ℝ) / 100] (some none)) = ([1], some none) := by
    simp only [checkWeight, sumFrom, percentLoop, real_add, real_div, real_lit, gt, real_lt, real_beq]
    norm_num
  rw [hc] at h h4
  exact ⟨D, oa, h, h4⟩

end Polycap
