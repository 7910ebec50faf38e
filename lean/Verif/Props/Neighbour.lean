import Verif.Capil
import Verif.Props.PathProps
import Verif.Props.Validate

/-!
# C23: a photon that crosses into a neighbouring capillary is followed there

`recordTemp` etc. are the bookkeeping of `polycap_capil_reflect`; here: how far the crossing photon is followed and what becomes of it.
-/
namespace Polycap
open CNum
variable {α : Type} [CNum α]

/-- one wall interaction after the other: `path i` is the profile index and photon before the `i`-th, each of the first `m`
interactions was a reflection (code 1) -/
def Follows (trace : Nat → Photon α → Out (Int × Nat × Photon α)) (m : Nat) (path : Nat → Nat × Photon α) : Prop :=
  ∀ i < m, trace (path i).1 (path i).2 = .ok (1, (path (i + 1)).1, (path (i + 1)).2)

omit [CNum α] in
theorem traceLoop_ends {trace : Nat → Photon α → Out (Int × Nat × Photon α)} :
    ∀ (m k : Nat) (path : Nat → Nat × Photon α) (iesc : Int) (x : Int × Nat × Photon α), Follows trace m path → m < k →
      trace (path m).1 (path m).2 = .ok x → x.1 ≠ 1 → traceLoop trace k iesc (path 0).1 (path 0).2 = .ok x
  | 0, k + 1, path, iesc, x, _, _, hx, hne => by
    simp only [traceLoop, hx, Out.bind_ok]
    rw [if_pos hne]
  | m + 1, k + 1, path, iesc, x, hf, hk, hx, hne => by
    have h0 := hf 0 (by omega)
    simp only [traceLoop, h0, Out.bind_ok, ne_eq, not_true, if_false]
    exact traceLoop_ends m k (fun i => path (i + 1)) 1 x (fun i hi => hf (i + 1) (by omega)) (by omega) hx hne

omit [CNum α] in
theorem traceLoop_lasts {trace : Nat → Photon α → Out (Int × Nat × Photon α)} :
    ∀ (k : Nat) (path : Nat → Nat × Photon α) (iesc : Int), Follows trace k path → 0 < k →
      traceLoop trace k iesc (path 0).1 (path 0).2 = .ok (1, (path k).1, (path k).2)
  | 1, path, iesc, hf, _ => by
    have h0 := hf 0 (by omega)
    simp only [traceLoop, h0, Out.bind_ok, ne_eq, not_true, if_false]
  | k + 2, path, iesc, hf, _ => by
    have h0 := hf 0 (by omega)
    have ih := traceLoop_lasts (k + 1) (fun i => path (i + 1)) 1 (fun i hi => hf (i + 1) (by omega)) (by omega)
    unfold traceLoop
    simp only [h0, Out.bind_ok, ne_eq, not_true, if_false]
    exact ih

/-- the crossing photon: same direction and electric vector, moved through the wall -/
structure Crosses (D : Descr α) (P : Photon α) (w : Wall α) (wl : List α) (T : Photon α) : Prop where
  code : wallCode D w.code (along P.exitC P.exitD w.d) = 1
  inside : ((along P.exitC P.exitD w.d).z <. D.prof.z D.prof.nmax) = true
  photon : (photonNew (along P.exitC P.exitD w.d) P.exitD P.exitE).map (fun T => tempPhoton P T w.d wl) = some T

/-- **C23.** A photon crossing into capillary (q,r) is followed there through up to one wall interaction for every profile point from
its position on; when it stops being reflected, its end is entered in the books of the original photon. -/
theorem neighbour_followed (D : Descr α) (trace : Int → Int → Nat → Photon α → Out (Int × Nat × Photon α)) (P : Photon α) (w : Wall α)
    (wl : List α) (iesc : Int) (T : Photon α) (hc : Crosses D P w wl T) (m : Nat) (path : Nat → Nat × Photon α)
    (h0 : path 0 = (segIdFrom D.prof.z 0 T.exitC.z (D.prof.nmax + 1), T)) (hf : Follows (trace w.q w.r) m path)
    (hm : m ≤ D.prof.nmax - segIdFrom D.prof.z 0 T.exitC.z (D.prof.nmax + 1)) (x : Int) (ix : Nat) (T' : Photon α)
    (hx : trace w.q w.r (path m).1 (path m).2 = .ok (x, ix, T')) (hne : x ≠ 1) :
    reflectLeak D trace P w wl iesc =
      if x = -1 ∨ x = -3 then .ok (-2, P)
      else .ok (iesc, recordTemp D { P with ext := P.ext ++ T'.ext, int := P.int ++ T'.int } T' x) := by
  obtain ⟨c1, c2, c3⟩ := hc
  rw [Option.map_eq_some_iff] at c3
  obtain ⟨T0, c4, c5⟩ := c3
  have ht := traceLoop_ends m (D.prof.nmax - segIdFrom D.prof.z 0 T.exitC.z (D.prof.nmax + 1) + 1) path 0 (x, ix, T') hf (by omega) hx hne
  rw [h0] at ht
  unfold reflectLeak
  simp only [c1, c2, c4, c5, and_self, if_true]
  rw [if_neg (by decide), if_neg (by decide)]
  simp only [ht, Out.bind_ok]

/-- **C23.** A photon still being reflected in the neighbouring capillary after that many interactions counts as having reached the end:
it is put on the exit plane along its last direction and recorded by its position there. -/
theorem neighbour_lasts (D : Descr α) (trace : Int → Int → Nat → Photon α → Out (Int × Nat × Photon α)) (P : Photon α) (w : Wall α)
    (wl : List α) (iesc : Int) (T : Photon α) (hc : Crosses D P w wl T) (path : Nat → Nat × Photon α)
    (h0 : path 0 = (segIdFrom D.prof.z 0 T.exitC.z (D.prof.nmax + 1), T))
    (hf : Follows (trace w.q w.r) (D.prof.nmax - segIdFrom D.prof.z 0 T.exitC.z (D.prof.nmax + 1) + 1) path) :
    ∃ T', T' = (path (D.prof.nmax - segIdFrom D.prof.z 0 T.exitC.z (D.prof.nmax + 1) + 1)).2 ∧
    reflectLeak D trace P w wl iesc =
      .ok (iesc, recordTemp D { P with ext := P.ext ++ T'.ext, int := P.int ++ T'.int } T' 1) := by
  obtain ⟨c1, c2, c3⟩ := hc
  rw [Option.map_eq_some_iff] at c3
  obtain ⟨T0, c4, c5⟩ := c3
  have ht := traceLoop_lasts _ path 0 hf (by omega)
  rw [h0] at ht
  refine ⟨_, rfl, ?_⟩
  unfold reflectLeak
  simp only [c1, c2, c4, c5, and_self, if_true]
  rw [if_neg (by decide), if_neg (by decide)]
  simp only [ht, Out.bind_ok]
  rw [if_neg (by decide)]

/-! ## A concrete crossing -/

noncomputable def nbD : Descr ℝ := ⟨5, 7, [14], [1], 2, straight (1/10) 1⟩
noncomputable def nbP : Photon ℝ :=
  { startC := ⟨0, 0, 0⟩, startD := ⟨0, 0, 1⟩, startE := ⟨1, 0, 0⟩, exitC := ⟨0, 0, 0⟩, exitD := ⟨0, 0, 1⟩,
    exitE := ⟨1, 0, 0⟩, i_refl := 0, d_travel := 0, ext := [], int := [], chans := [], coef := true }

theorem nbAlong : along (⟨0, 0, 0⟩ : V3 ℝ) ⟨0, 0, 1⟩ (1/2) = ⟨0, 0, 1/2⟩ := by
  simp [along, scalar]

/-- a photon on the axis of a 7-capillary optic that crosses a wall half a unit further on -/
theorem nbCrosses : ∃ T, Crosses nbD nbP ⟨1, 1/2, 0, 0⟩ [] T := by
  have hp : ∃ T0, photonNew (α := ℝ) ⟨0, 0, 1/2⟩ ⟨0, 0, 1⟩ ⟨1, 0, 0⟩ = some T0 := by
    rw [← Option.isSome_iff_exists]
    unfold photonNew
    rw [if_neg (by simp), if_neg (by simp)]
    rfl
  obtain ⟨T0, hp⟩ := hp
  refine ⟨tempPhoton nbP T0 (1/2) [], ⟨?_, ?_, by simp only [nbP, nbAlong, hp, Option.map_some]⟩⟩
  · have hb : withinPcBoundary (extAt nbD.prof 0 (1/2)) (0:ℝ) 0 ≠ 0 := by
      have he : extAt nbD.prof 0 (1/2 : ℝ) = 1 := by
        simp [extAt, interpAt, interp, nbD, straight]
      rw [he]
      have := (boundary_one_iff 1 0 0).mpr ⟨by norm_num, by simp; positivity, by simp; positivity, by simp; positivity⟩
      rw [this]; decide
    simp only [nbP, nbAlong, wallCode, if_true]
    rw [if_neg (by simp [nbD, nShells_7]), if_neg hb]
  · simp only [nbP, nbAlong, nbD, straight]
    simp; norm_num

end Polycap
