import Verif.Props.Hdf5Props

/-!
# C38, C39: contents of the HDF5 file and what the caller is told
-/
namespace Polycap.H5
open CNum

variable {α : Type} [CNum α]

/-! ## Specification -/

/-- The events of a simulation as plain lists: per transmitted photon its start and exit record and its weights, per leak its
record and its weights (for internal leaks also the electric vector). -/
structure Events (α : Type) where
  starts : List (StartRec α)
  exits : List (ExitRec α)
  wts : List (List α)
  ext : List (LeakRec α)
  extW : List (List α)
  int : List (LeakRec α)
  intE : List (α × α)
  intW : List (List α)

/-- The arrays `f` holds `rows` of `ne` numbers, row after row. -/
def HoldsRows (ne : Nat) (f : Nat → Option α) (rows : List (List α)) : Prop :=
  (∀ r ∈ rows, r.length = ne) ∧ ∀ j r, rows[j]? = some r → ∀ l < ne, f (j * ne + l) = r[l]?

/-- `te` holds the events `ev`. -/
structure Holds (te : TE α) (ev : Events α) : Prop where
  effs : te.effs.length = te.energies.length
  nStart : ev.starts.length = te.iExit
  nExit : ev.exits.length = te.iExit
  nWts : ev.wts.length = te.iExit
  start : ∀ j < te.iExit, te.start j = ev.starts[j]?
  exit : ∀ j < te.iExit, te.exit j = ev.exits[j]?
  wts : HoldsRows te.energies.length te.exitW ev.wts
  nExt : ev.ext.length = te.iExt
  nExtW : ev.extW.length = te.iExt
  ext : ∀ j < te.iExt, te.extL j = ev.ext[j]?
  extW : HoldsRows te.energies.length te.extW ev.extW
  nInt : ev.int.length = te.iInt
  nIntE : ev.int.map (·.elec) = ev.intE.map some
  nIntW : ev.intW.length = te.iInt
  int : ∀ j < te.iInt, te.intL j = ev.int[j]?
  intW : HoldsRows te.energies.length te.intW ev.intW

/-- A dataset of equally long rows: as many rows as the first dimension says, each as long as the second says. -/
def mat (grp name : String) (n : Nat) (rows : List (List α)) (unit : String) : DSet α :=
  ⟨grp, name, [rows.length, n], some rows.flatten, some unit⟩
def vec (grp name : String) (vals : List α) (unit : String) : DSet α := ⟨grp, name, [vals.length], some vals, some unit⟩

/-- total weight of the leaks at energy `j`, per simulated photon -/
def total (iStart : Nat) (ws : List (List α)) (j : Nat) : α :=
  (ws.foldl (fun s w => s +. w.getD j (lit 0)) (lit 0)) /. ofInt (iStart : Int)

/-- what the file has to contain about the photons -/
def photonFile (te : TE α) (ev : Events α) : List (DSet α) :=
  [vec "" "Energies" te.energies "keV",
   vec "" "Transmission_Efficiencies" te.effs "a.u.",
   mat "PC_Start" "Coordinates" te.iExit [ev.starts.map (·.x), ev.starts.map (·.y)] "[cm,cm]",
   mat "PC_Start" "Direction" te.iExit [ev.starts.map (·.dirX), ev.starts.map (·.dirY)] "[cm,cm]",
   mat "PC_Start" "Electric_Vector" te.iExit [ev.starts.map (·.elecX), ev.starts.map (·.elecY)] "[cm,cm]",
   mat "PC_Exit" "Coordinates" te.iExit [ev.exits.map (·.x), ev.exits.map (·.y), ev.exits.map (·.z)] "[cm,cm,cm]",
   vec "PC_Exit" "N_Reflections" (ev.exits.map (fun r => ofInt r.n_refl)) "a.u.",
   mat "PC_Exit" "Direction" te.iExit [ev.exits.map (·.dirX), ev.exits.map (·.dirY)] "[cm,cm]",
   mat "" "Source_Start_Coordinates" te.iExit [ev.starts.map (·.srcX), ev.starts.map (·.srcY)] "[cm,cm]",
   mat "PC_Exit" "Electric_Vector" te.iExit [ev.exits.map (·.elecX), ev.exits.map (·.elecY)] "[cm,cm]",
   mat "PC_Exit" "Weights" te.energies.length ev.wts "[keV,a.u.]",
   vec "PC_Exit" "D_Travel" (ev.exits.map (·.d_travel)) "[cm]"]

/-- about the external leaks -/
def extFile (te : TE α) (ev : Events α) : List (DSet α) :=
  if te.iExt = 0 then [] else
  [mat "ExternalLeaks" "Coordinates" te.iExt [ev.ext.map (·.coords.x), ev.ext.map (·.coords.y), ev.ext.map (·.coords.z)] "[cm,cm,cm]",
   mat "ExternalLeaks" "Direction" te.iExt [ev.ext.map (·.dirX), ev.ext.map (·.dirY)] "[cm,cm]",
   mat "ExternalLeaks" "Weights" te.energies.length ev.extW "[keV,a.u.]",
   vec "ExternalLeaks" "Weight_Total" ((List.range te.energies.length).map (total te.iStart ev.extW)) "a.u.",
   vec "ExternalLeaks" "N_Reflections" (ev.ext.map (fun r => ofInt r.n_refl)) "a.u."]

/-- about the internal leaks -/
def intFile (te : TE α) (ev : Events α) : List (DSet α) :=
  if te.iInt = 0 then [] else
  [mat "InternalLeaks" "Coordinates" te.iInt [ev.int.map (·.coords.x), ev.int.map (·.coords.y), ev.int.map (·.coords.z)] "[cm,cm,cm]",
   mat "InternalLeaks" "Direction" te.iInt [ev.int.map (·.dirX), ev.int.map (·.dirY)] "[cm,cm]",
   mat "InternalLeaks" "Electric_Vector" te.iInt [ev.intE.map (·.1), ev.intE.map (·.2)] "[cm,cm]",
   mat "InternalLeaks" "Weights" te.energies.length ev.intW "[keV,a.u.]",
   vec "InternalLeaks" "Weight_Total" ((List.range te.energies.length).map (total te.iStart ev.intW)) "a.u.",
   vec "InternalLeaks" "N_Reflections" (ev.int.map (fun r => ofInt r.n_refl)) "a.u."]

/-- about the optic and the source.  Finding: the last point of the optic, number `nmax`, is missing. -/
def inputFile (i : Inp α) : List (DSet α) :=
  let p := i.descr.prof
  [mat "Input" "PC_Shape" p.nmax [(List.range p.nmax).map p.z, (List.range p.nmax).map p.ext] "[cm,cm]",
   mat "Input" "Cap_Shape" p.nmax [(List.range p.nmax).map p.z, (List.range p.nmax).map p.cap] "[cm,cm]",
   vec "Input" "N_Capillaries" [ofInt i.descr.n_cap] "a.u.",
   vec "Input" "Surface_Roughness" [i.descr.sig_rough] "Angstrom",
   vec "Input" "Open_Area" [i.openArea] "a.u.",
   mat "Input" "PC_Composition" i.descr.wi.length [i.descr.iz.map ofInt, i.descr.wi] "[Z,w%]",
   vec "Input" "PC_Density" [i.descr.density] "g/cm3",
   vec "Input" "Src_PC_Dist" [i.src.d_source] "cm"]

def fullFile (te : TE α) (ev : Events α) (i : Inp α) : List (DSet α) :=
  photonFile te ev ++ extFile te ev ++ intFile te ev ++ inputFile i

/-! ## Reading the arrays -/

omit [CNum α]

theorem row_of {β : Type} {n : Nat} {f : Nat → Option β} {l : List β} (hl : l.length = n) (h : ∀ j < n, f j = l[j]?) (g : β → α) :
    (l.map g).length = n ∧ ∀ j < n, (f j).map g = (l.map g)[j]? :=
  ⟨by simpa using hl, fun j hj => by rw [h j hj, List.getElem?_map]⟩

theorem read_rows {ne : Nat} {f : Nat → Option α} {rows : List (List α)} (h : HoldsRows ne f rows) :
    readBuf f (dimProd [rows.length, ne]) = .ok rows.flatten := by
  have hlen : rows.flatten.length = rows.length * ne := by
    rw [List.length_flatten, List.map_congr_left (g := fun _ => ne) h.1]
    simp
  rw [show dimProd [rows.length, ne] = rows.length * ne by simp [dimProd]]
  rcases Nat.eq_zero_or_pos ne with rfl | h0
  · simp only [Nat.mul_zero] at hlen ⊢
    rw [List.length_eq_zero_iff.1 hlen]; rfl
  rw [readBuf_ok f rows.flatten _ (by omega), List.take_of_length_le (by omega)]
  intro i hi
  have hd : i / ne < rows.length := Nat.div_lt_of_lt_mul (by rw [Nat.mul_comm]; exact hi)
  have hm : i % ne < ne := Nat.mod_lt _ h0
  rw [flatten_uniform h0 rows h.1, List.getElem?_eq_getElem hd]
  have := h.2 (i / ne) rows[i / ne] (List.getElem?_eq_getElem hd) (i % ne) hm
  rw [Nat.div_add_mod' i ne] at this
  exact this

theorem read_list (l : List α) (f : Nat → Option α) (h : ∀ j < l.length, f j = l[j]?) : readBuf f (dimProd [l.length]) = .ok l := by
  rw [show dimProd [l.length] = l.length by simp [dimProd], readBuf_ok f l l.length (Nat.le_refl _) h, List.take_length]

theorem read_row {l : List α} {n : Nat} {f : Nat → Option α} (h : l.length = n ∧ ∀ j < n, f j = l[j]?) :
    readBuf f (dimProd [n]) = .ok l := by
  obtain ⟨rfl, h⟩ := h
  exact read_list l f h

theorem read_one (x : α) : readBuf (one x) (dimProd [1]) = .ok [x] := rfl

theorem leakSum_ok [CNum α] {ne : Nat} {f : Nat → Option α} {rows : List (List α)} (h : HoldsRows ne f rows) {j : Nat} (hj : j < ne) :
    ∀ m ≤ rows.length, leakSum ne f j m = some ((rows.take m).foldl (fun s w => s +. w.getD j (lit 0)) (lit 0))
  | 0, _ => rfl
  | m + 1, hm => by
    have hr : rows[m]? = some rows[m] := List.getElem?_eq_getElem (by omega)
    have hl : rows[m].length = ne := h.1 _ (List.getElem_mem _)
    have hx : f (m * ne + j) = some (rows[m].getD j (lit 0)) := by
      rw [h.2 m _ hr j hj, List.getD_eq_getElem?_getD, List.getElem?_eq_getElem (by omega)]; rfl
    rw [leakSum, leakSum_ok h hj m (by omega), hx, List.take_add_one, hr, List.foldl_append]
    rfl

theorem total_rows [CNum α] {ne : Nat} {f : Nat → Option α} {rows : List (List α)} (h : HoldsRows ne f rows) (iStart : Nat) :
    RowsOf ne [fun j => (leakSum ne f j rows.length).map (fun s => s /. ofInt (iStart : Int))] [(List.range ne).map (total iStart rows)] := by
  refine .cons ⟨by simp, fun j hj => ?_⟩ .nil
  beta_reduce
  rw [leakSum_ok h hj _ (Nat.le_refl _), List.take_length, List.getElem?_map, List.getElem?_range hj]
  rfl

/-! ## The parts of the file -/

/-- contents after the datasets `ds` in new groups `gs` -/
def K.adds (k : K α) (gs : List String) (ds : List (DSet α)) : K α := { k with groups := gs ++ k.groups, sets := ds.reverse ++ k.sets }

section parts
variable [CNum α] {env : Env} (hs : env.Stacks) {e : EArg} {te : TE α} {ev : Events α} (H : Holds te ev)
include hs

include H in
theorem photons_good {k : K α} {i : Int} (h1 : k.scal = false) (h2 : k.typ = false) (hg : k.groups = []) (hd : k.sets = []) :
    Spec env e (Good e k i) (seqAll (photonSteps env te)) (Good e (k.adds ["PC_Exit", "PC_Start"] (photonFile te ev)) (i + 2)) := by
  have S := fun (g : StartRec α → α) => row_of H.nStart H.start g
  have X := fun (g : ExitRec α → α) => row_of H.nExit H.exit g
  obtain ⟨file, groups, sets, scal, typ, live⟩ := k
  simp only at h1 h2 hg hd
  subst h1 h2 hg hd
  unfold photonSteps
  simp only
  refine Spec.seq (writeDataset_good hs (read_list te.energies _ (fun j _ => rfl)) rfl rfl rfl) ?_
  refine Spec.seq (writeDataset_good hs (by rw [← H.effs]; exact read_list te.effs _ (fun j _ => rfl)) (by simp [canCreate, K.add]) rfl rfl) ?_
  refine group_good hs (Ls := [ev.starts.map (·.x), ev.starts.map (·.y)]) ?_ rfl ?_ ?_ ?_ ?_ rfl rfl ?_
  · exact .cons (S _) (.cons (S _) .nil)
  · simp [dimProd]; ring
  · simp [K.add]
  · decide
  · simp [K.add]
  refine Spec.seq (tempSet_good hs (Ls := [ev.starts.map (·.dirX), ev.starts.map (·.dirY)]) (.cons (S _) (.cons (S _) .nil)) rfl (by simp [dimProd]; ring)
    (by simp [canCreate, K.add]) rfl rfl) ?_
  refine Spec.seq (tempSet_good hs (Ls := [ev.starts.map (·.elecX), ev.starts.map (·.elecY)]) (.cons (S _) (.cons (S _) .nil)) rfl (by simp [dimProd]; ring)
    (by simp [canCreate, K.add]) rfl rfl) ?_
  refine group_good hs (Ls := [ev.exits.map (·.x), ev.exits.map (·.y), ev.exits.map (·.z)]) ?_ rfl ?_ ?_ ?_ ?_ rfl rfl ?_
  · exact .cons (X _) (.cons (X _) (.cons (X _) .nil))
  · simp [dimProd]; ring
  · simp [K.add]
  · decide
  · simp [K.add]
  refine Spec.seq (tempSet_good hs (Ls := [ev.exits.map (fun r => ofInt r.n_refl)]) (.cons (X _) .nil) (by simp) (by simp [dimProd])
    (by simp [canCreate, K.add]) rfl rfl) ?_
  refine Spec.seq (tempSet_good hs (Ls := [ev.exits.map (·.dirX), ev.exits.map (·.dirY)]) (.cons (X _) (.cons (X _) .nil)) rfl (by simp [dimProd]; ring)
    (by simp [canCreate, K.add]) rfl rfl) ?_
  refine Spec.seq (tempSet_good hs (Ls := [ev.starts.map (·.srcX), ev.starts.map (·.srcY)]) (.cons (S _) (.cons (S _) .nil)) rfl (by simp [dimProd]; ring)
    (by simp [canCreate, K.add]) rfl rfl) ?_
  refine Spec.seq (tempSet_good hs (Ls := [ev.exits.map (·.elecX), ev.exits.map (·.elecY)]) (.cons (X _) (.cons (X _) .nil)) rfl (by simp [dimProd]; ring)
    (by simp [canCreate, K.add]) rfl rfl) ?_
  refine Spec.seq (writeDataset_good hs (by rw [← H.nWts]; exact read_rows H.wts) (by simp [canCreate, K.add]) rfl rfl) ?_
  refine Spec.seq (writeDataset_good hs (read_row (X (·.d_travel))) (by simp [canCreate, K.add]) rfl rfl) ?_
  refine Spec.nil.imp (fun w hw => ?_)
  rw [show i + 1 + 1 = i + 2 by ring] at hw
  simpa [K.add, K.adds, photonFile, vec, mat, H.nWts, H.effs, H.nExit] using hw

include H in
theorem ext_good {k : K α} {i : Int} (hu : ∀ n, env.ok .mallocU n = true) (h1 : k.scal = false) (h2 : k.typ = false)
    (hg : "ExternalLeaks" ∉ k.groups) (hd : ∀ d ∈ k.sets, d.grp ≠ "ExternalLeaks") :
    Spec env e (Good e k i) (seqAll (extSteps env te))
      (Good e (k.adds (if te.iExt = 0 then [] else ["ExternalLeaks"]) (extFile te ev)) i) := by
  have S := fun (g : LeakRec α → α) => row_of H.nExt H.ext g
  unfold extSteps extFile
  by_cases hm : te.iExt = 0
  · simp only [hm, Nat.lt_irrefl, if_false, if_true, gt_iff_lt]
    exact Spec.nil
  · rw [if_pos (by omega), if_neg hm, if_neg hm]
    have hnn : ∀ (x : DSet α), x ∈ k.sets → ∀ s : String, x.grp = "ExternalLeaks" → ¬x.name = s := fun x hx s h => absurd h (hd x hx)
    refine group_good hs (Ls := [ev.ext.map (·.coords.x), ev.ext.map (·.coords.y), ev.ext.map (·.coords.z)]) ?_ rfl ?_ hg (by decide) hd h1 h2 ?_
    · exact .cons (S _) (.cons (S _) (.cons (S _) .nil))
    · simp [dimProd]; ring
    refine Spec.seq (tempSet_good hs (Ls := [ev.ext.map (·.dirX), ev.ext.map (·.dirY)]) (.cons (S _) (.cons (S _) .nil)) rfl
      (by simp [dimProd]; ring) (by simp [canCreate, K.add]; grind) h1 h2) ?_
    refine Spec.seq (writeDataset_good hs (by rw [← H.nExtW]; exact read_rows H.extW) (by simp [canCreate, K.add]; grind) h1 h2) ?_
    refine Spec.seq (totalSet_good hs hu (by rw [← H.nExtW]; exact total_rows H.extW te.iStart) (by simp [canCreate, K.add]; grind) h1 h2) ?_
    refine Spec.seq (tempSet_good hs (Ls := [ev.ext.map (fun r => ofInt r.n_refl)]) (.cons (S _) .nil) (by simp) (by simp [dimProd])
      (by simp [canCreate, K.add]; grind) h1 h2) ?_
    refine Spec.seq (chkOn_good hs (Or.inl rfl) (by simp [K.add])) ?_
    refine Spec.nil.imp (fun w hw => ?_)
    rw [show i + 1 - 1 = i by ring] at hw
    simpa [K.add, K.adds, vec, mat, H.nExtW, H.nExt] using hw

include H in
theorem int_good {k : K α} {i : Int} (hu : ∀ n, env.ok .mallocU n = true) (h1 : k.scal = false) (h2 : k.typ = false)
    (hg : "InternalLeaks" ∉ k.groups) (hd : ∀ d ∈ k.sets, d.grp ≠ "InternalLeaks") :
    Spec env e (Good e k i) (seqAll (intSteps env te))
      (Good e (k.adds (if te.iInt = 0 then [] else ["InternalLeaks"]) (intFile te ev)) i) := by
  have S := fun (g : LeakRec α → α) => row_of H.nInt H.int g
  have hl : ev.intE.length = te.iInt := by
    have := congrArg List.length H.nIntE
    simp only [List.length_map] at this
    rw [← this, H.nInt]
  have E : ∀ g : α × α → α, (ev.intE.map g).length = te.iInt ∧
      ∀ j < te.iInt, (te.intL j).bind (fun r => r.elec.map g) = (ev.intE.map g)[j]? := fun g => by
    refine ⟨by simpa using hl, fun j hj => ?_⟩
    have h := congrArg (fun l => l[j]?) H.nIntE
    simp only [List.getElem?_map] at h
    rw [H.int j hj, List.getElem?_map]
    cases hx : ev.int[j]? with
    | none => rw [hx] at h; simp at h; simp [h]
    | some r =>
      rw [hx] at h
      cases hy : ev.intE[j]? with
      | none => rw [hy] at h; simp at h
      | some y => rw [hy] at h; simp at h; simp [h]
  unfold intSteps intFile
  by_cases hm : te.iInt = 0
  · simp only [hm, Nat.lt_irrefl, if_false, if_true, gt_iff_lt]
    exact Spec.nil
  · rw [if_pos (by omega), if_neg hm, if_neg hm]
    have hnn : ∀ (x : DSet α), x ∈ k.sets → ∀ s : String, x.grp = "InternalLeaks" → ¬x.name = s := fun x hx s h => absurd h (hd x hx)
    refine group_good hs (Ls := [ev.int.map (·.coords.x), ev.int.map (·.coords.y), ev.int.map (·.coords.z)]) ?_ rfl ?_ hg (by decide) hd h1 h2 ?_
    · exact .cons (S _) (.cons (S _) (.cons (S _) .nil))
    · simp [dimProd]; ring
    refine Spec.seq (tempSet_good hs (Ls := [ev.int.map (·.dirX), ev.int.map (·.dirY)]) (.cons (S _) (.cons (S _) .nil)) rfl
      (by simp [dimProd]; ring) (by simp [canCreate, K.add]; grind) h1 h2) ?_
    refine Spec.seq (tempSet_good hs (Ls := [ev.intE.map (·.1), ev.intE.map (·.2)]) (.cons (E _) (.cons (E _) .nil)) rfl
      (by simp [dimProd]; ring) (by simp [canCreate, K.add]; grind) h1 h2) ?_
    refine Spec.seq (writeDataset_good hs (by rw [← H.nIntW]; exact read_rows H.intW) (by simp [canCreate, K.add]; grind) h1 h2) ?_
    refine Spec.seq (totalSet_good hs hu (by rw [← H.nIntW]; exact total_rows H.intW te.iStart) (by simp [canCreate, K.add]; grind) h1 h2) ?_
    refine Spec.seq (tempSet_good hs (Ls := [ev.int.map (fun r => ofInt r.n_refl)]) (.cons (S _) .nil) (by simp) (by simp [dimProd])
      (by simp [canCreate, K.add]; grind) h1 h2) ?_
    refine Spec.seq (chkOn_good hs (Or.inl rfl) (by simp [K.add])) ?_
    refine Spec.nil.imp (fun w hw => ?_)
    rw [show i + 1 - 1 = i by ring] at hw
    simpa [K.add, K.adds, vec, mat, H.nIntW, H.nInt] using hw

theorem input_good {k : K α} {i : Int} {inp : Inp α} (hz : inp.descr.iz.length = inp.descr.wi.length) (h1 : k.scal = false) (h2 : k.typ = false)
    (hg : "Input" ∉ k.groups) (hd : ∀ d ∈ k.sets, d.grp ≠ "Input") :
    Spec env e (Good e k i) (seqAll (inputSteps env (some inp))) (Good e (k.adds ["Input"] (inputFile inp)) (i + 1)) := by
  have hp : ∀ f : Nat → α, ((List.range inp.descr.prof.nmax).map f).length = inp.descr.prof.nmax ∧
      ∀ j < inp.descr.prof.nmax, profArr inp.descr.prof f j = ((List.range inp.descr.prof.nmax).map f)[j]? := fun f =>
    ⟨by simp, fun j hj => by rw [List.getElem?_map, List.getElem?_range hj, profArr, if_pos (by omega)]; rfl⟩
  have hnn : ∀ (x : DSet α), x ∈ k.sets → ∀ s : String, x.grp = "Input" → ¬x.name = s := fun x hx s h => absurd h (hd x hx)
  unfold inputSteps
  simp only
  refine group_good hs (Ls := [(List.range inp.descr.prof.nmax).map inp.descr.prof.z, (List.range inp.descr.prof.nmax).map inp.descr.prof.ext])
    ?_ rfl ?_ hg (by decide) hd h1 h2 ?_
  · exact .cons (hp _) (.cons (hp _) .nil)
  · simp [dimProd]; ring
  refine Spec.seq (tempSet_good hs (Ls := [(List.range inp.descr.prof.nmax).map inp.descr.prof.z, (List.range inp.descr.prof.nmax).map inp.descr.prof.cap])
    (.cons (hp _) (.cons (hp _) .nil)) rfl (by simp [dimProd]; ring) (by simp [canCreate, K.add]; grind) h1 h2) ?_
  refine Spec.seq (tempSet_good hs (Ls := [[ofInt inp.descr.n_cap]]) (.cons ⟨rfl, fun j hj => by
    rw [Nat.lt_one_iff.1 hj]; rfl⟩ .nil) rfl (by simp [dimProd]) (by simp [canCreate, K.add]; grind) h1 h2) ?_
  refine Spec.seq (writeDataset_good hs (read_one _) (by simp [canCreate, K.add]; grind) h1 h2) ?_
  refine Spec.seq (writeDataset_good hs (read_one _) (by simp [canCreate, K.add]; grind) h1 h2) ?_
  refine Spec.seq (tempSet_good hs (Ls := [inp.descr.iz.map ofInt, inp.descr.wi]) (.cons ⟨by simpa using hz, fun j hj => by simp⟩
    (.cons ⟨rfl, fun j hj => rfl⟩ .nil)) rfl (by simp [dimProd]; ring) (by simp [canCreate, K.add]; grind) h1 h2) ?_
  refine Spec.seq (writeDataset_good hs (read_one _) (by simp [canCreate, K.add]; grind) h1 h2) ?_
  refine Spec.seq (writeDataset_good hs (read_one _) (by simp [canCreate, K.add]; grind) h1 h2) ?_
  refine Spec.nil.imp (fun w hw => ?_)
  simpa [K.add, K.adds, inputFile, vec, mat] using hw

omit [CNum α] in
theorem close_good {k : K α} {i : Int} (hg : ∀ g ∈ ["PC_Exit", "PC_Start", "Input"], g ∈ k.groups) :
    Spec env e (Good e k i) (seqAll (closeSteps env)) (Good e k (i - 4)) := by
  refine Spec.seq (chkOn_good hs (Or.inl rfl) (by simpa using hg "PC_Exit" (by simp))) ?_
  refine Spec.seq (chkOn_good hs (Or.inl rfl) (by simpa using hg "PC_Start" (by simp))) ?_
  refine Spec.seq (chkOn_good hs (Or.inl rfl) (by simpa using hg "Input" (by simp))) ?_
  refine Spec.seq (chkOn_good hs (Or.inr rfl) rfl) ?_
  refine Spec.nil.imp (fun w hw => ?_)
  rwa [show i - 1 - 1 - 1 - 1 = i - 4 by ring] at hw

end parts

/-! ## The whole function -/

variable [CNum α]

theorem photonFile_grp {te : TE α} {ev : Events α} (g : String) (h1 : g ≠ "") (h2 : g ≠ "PC_Start") (h3 : g ≠ "PC_Exit") :
    ∀ d ∈ photonFile te ev, d.grp ≠ g := by
  intro d hd
  simp only [photonFile, vec, mat, List.mem_cons, List.not_mem_nil, or_false] at hd
  rcases hd with rfl | rfl | rfl | rfl | rfl | rfl | rfl | rfl | rfl | rfl | rfl | rfl <;> simp <;> tauto

theorem extFile_grp {te : TE α} {ev : Events α} (g : String) (h1 : g ≠ "ExternalLeaks") : ∀ d ∈ extFile te ev, d.grp ≠ g := by
  intro d hd
  unfold extFile at hd
  split_ifs at hd
  · cases hd
  · simp only [vec, mat, List.mem_cons, List.not_mem_nil, or_false] at hd
    rcases hd with rfl | rfl | rfl | rfl | rfl <;> simp <;> tauto

theorem intFile_grp {te : TE α} {ev : Events α} (g : String) (h1 : g ≠ "InternalLeaks") : ∀ d ∈ intFile te ev, d.grp ≠ g := by
  intro d hd
  unfold intFile at hd
  split_ifs at hd
  · cases hd
  · simp only [vec, mat, List.mem_cons, List.not_mem_nil, or_false] at hd
    rcases hd with rfl | rfl | rfl | rfl | rfl | rfl <;> simp <;> tauto

theorem write_spec {env : Env} (hs : env.Stacks) (hu : ∀ n, env.ok .mallocU n = true) {te : TE α} {ev : Events α} (H : Holds te ev)
    {inp : Inp α} (hz : inp.descr.iz.length = inp.descr.wi.length) (e : EArg) :
    ∃ b w, writeHdf5 env true (some te) (some inp) e = .ok (b, w) ∧
      (b = true → ∃ gs, Good e ⟨true, gs, (fullFile te ev inp).reverse, false, false, 0⟩ 0 w) ∧ (b = false → Bad env e w) := by
  have h0 : Good e (W.initial (α := α) e).k 0 (W.initial e) := ⟨rfl, rfl, by simp [W.initial], Or.inl ⟨rfl, by simp [W.initial]⟩⟩
  have main : Spec env e (Good e (W.initial (α := α) e).k 0)
      (seqAll (chk env .fcreate always 1 (fun k => { k with file := true }) ::
        (photonSteps env te ++ extSteps env te ++ intSteps env te ++ inputSteps env (some inp) ++ closeSteps env)))
      (fun w => ∃ gs, Good e ⟨true, gs, (fullFile te ev inp).reverse, false, false, 0⟩ 0 w) := by
    refine Spec.seq (chk_good hs (by rintro (h | h) <;> cases h) rfl) ?_
    have hgrp := photonFile_grp (te := te) (ev := ev)
    have hext := extFile_grp (te := te) (ev := ev)
    have hint := intFile_grp (te := te) (ev := ev)
    refine Spec.append (Spec.append (Spec.append (Spec.append (photons_good hs H rfl rfl rfl rfl) (ext_good hs H hu rfl rfl ?_ ?_))
      (int_good hs H hu rfl rfl ?_ ?_)) (input_good hs hz rfl rfl ?_ ?_)) ((close_good hs ?_).imp ?_)
    · simp [K.adds, W.initial]
    · intro d hd
      simp only [K.adds, W.initial, List.append_nil, List.mem_reverse] at hd
      exact hgrp _ (by decide) (by decide) (by decide) d hd
    · simp only [K.adds, W.initial]; split_ifs <;> simp
    · intro d hd
      simp only [K.adds, W.initial, List.append_nil, List.mem_append, List.mem_reverse] at hd
      rcases hd with hd | hd
      · exact hext _ (by decide) d hd
      · exact hgrp _ (by decide) (by decide) (by decide) d hd
    · simp only [K.adds, W.initial]; split_ifs <;> simp
    · intro d hd
      simp only [K.adds, W.initial, List.append_nil, List.mem_append, List.mem_reverse] at hd
      rcases hd with hd | hd | hd
      · exact hint _ (by decide) d hd
      · exact hext _ (by decide) d hd
      · exact hgrp _ (by decide) (by decide) (by decide) d hd
    · intro g hg
      simp only [List.mem_cons, List.not_mem_nil, or_false] at hg
      simp only [K.adds, W.initial]
      rcases hg with rfl | rfl | rfl <;> simp
    · intro w hw
      refine ⟨["Input"] ++ ((if te.iInt = 0 then [] else ["InternalLeaks"]) ++ ((if te.iExt = 0 then [] else ["ExternalLeaks"]) ++
        ["PC_Exit", "PC_Start"])), ?_⟩
      rw [show (0 : Int) + 1 + 2 + 1 - 4 = 0 by ring] at hw
      simpa [K.adds, W.initial, fullFile] using hw
  obtain ⟨b, w, h1, h2, h3⟩ := main _ h0
  exact ⟨b, w, h1, h2, h3⟩

/-- **C38, C39.**  Whatever calls of HDF5 and `malloc` fail (`hs`: HDF5 leaves a record of its failures; `hu`: the two unchecked
allocations succeed): `true` is returned exactly if nothing failed but closing groups or the file; then every dataset is in the
file with all its values and no temporary array is left; an error is set exactly if something failed. -/
theorem hdf5_write {env : Env} (hs : env.Stacks) (hu : ∀ n, env.ok .mallocU n = true) {te : TE α} {ev : Events α} (H : Holds te ev)
    {inp : Inp α} (hz : inp.descr.iz.length = inp.descr.wi.length) (e : EArg) :
    ∃ b w, writeHdf5 env true (some te) (some inp) e = .ok (b, w) ∧
      (b = true ↔ ∀ x ∈ w.log, x.2 = false → x.1 = .gclose ∨ x.1 = .fclose) ∧
      (b = false → ∃ c n, c ≠ .gclose ∧ c ≠ .fclose ∧ env.ok c n = false) ∧
      (b = true → w.k.sets.reverse = fullFile te ev inp ∧ w.k.live = 0 ∧ w.ids = w.log.countP (fun x => !x.2)) ∧
      ((∀ x ∈ w.log, x.2 = true) → b = true ∧ w.err = e) ∧
      ((∃ x ∈ w.log, x.2 = false) → ∃ c, w.err = e.set c) := by
  obtain ⟨b, w, h, hg, hb⟩ := write_spec hs hu H hz e
  refine ⟨b, w, h, ?_⟩
  cases b with
  | true =>
    obtain ⟨gs, G⟩ := hg rfl
    refine ⟨⟨fun _ => G.log, fun _ => rfl⟩, by simp, fun _ => ⟨by rw [G.k]; simp, by rw [G.k], by rw [G.ids]; simp [failedCloses]⟩, fun hall => ⟨rfl, ?_⟩, ?_⟩
    · rcases G.err with h | ⟨c, -, x, hx, hf⟩
      · exact h.1
      · rw [hall x hx] at hf; cases hf
    · rintro ⟨x, hx, hf⟩
      rcases G.err with h | ⟨c, h, -⟩
      · rw [h.2 x hx] at hf; cases hf
      · exact ⟨c, h⟩
  | false =>
    have B := hb rfl
    obtain ⟨x, hx, hf, hc, n, hn⟩ := B.log
    exact ⟨⟨by simp, fun h => absurd (h x hx hf) hc⟩, fun _ => ⟨x.1, n, fun h => hc (Or.inl h), fun h => hc (Or.inr h), hn⟩, by simp,
      fun hall => (by rw [hall x hx] at hf; cases hf), fun _ => B.err⟩

/-- NULL arguments are refused before anything is touched. -/
theorem hdf5_null (env : Env) (hasName : Bool) (te : Option (TE α)) (inp : Option (Inp α)) (e : EArg) (h : hasName = false ∨ te = none) :
    ∃ w, writeHdf5 env hasName te inp e = .ok (false, w) ∧ w.err = e.set .invalidArgument ∧ w.log = [] ∧ w.k.file = false := by
  rcases h with rfl | rfl
  · exact ⟨_, rfl, rfl, rfl, rfl⟩
  · cases hasName <;> exact ⟨_, rfl, rfl, rfl, rfl⟩

omit [CNum α] in
theorem seqAll_last {ss : List (Step α)} {env : Env} {w w' : W α}
    (h : seqAll (ss ++ [chkOn env .fclose always (-1) id]) w = .ok (true, w')) : ∃ n, (Call.fclose, env.ok .fclose n) ∈ w'.log := by
  rw [seqAll_append, Out.bind_eq_ok] at h
  obtain ⟨⟨b, v⟩, h1, h2⟩ := h
  cases b with
  | false => simp at h2
  | true =>
    simp only [if_true, seqAll, chkOn, call, always, Bool.and_true] at h2
    refine ⟨v.log.length, ?_⟩
    cases ho : env.ok .fclose v.log.length with
    | true => simp [ho] at h2; rw [← h2]; simp
    | false =>
      simp only [ho, raise] at h2
      cases hx : setException env.tables (env.stack ((v.log ++ [(Call.fclose, false)]).length - 1)) v.err with
      | ok y => simp only [Bool.false_eq_true, if_false] at h2; rw [hx] at h2; simp at h2; rw [← h2]; simp
      | ub => simp only [Bool.false_eq_true, if_false] at h2; rw [hx] at h2; simp at h2
      | fuel => simp only [Bool.false_eq_true, if_false] at h2; rw [hx] at h2; simp at h2

/-- **C39 is false**: if closing the file fails, and nothing else, the call still returns `true` — with an error set. -/
theorem hdf5_close_failure {env : Env} (hs : env.Stacks) (hok : ∀ c n, env.ok c n = !decide (c = .fclose)) {te : TE α} {ev : Events α}
    (H : Holds te ev) {inp : Inp α} (hz : inp.descr.iz.length = inp.descr.wi.length) :
    ∃ w c, writeHdf5 env true (some te) (some inp) (some none) = .ok (true, w) ∧ (.fclose, false) ∈ w.log ∧ w.err = some (some c) := by
  obtain ⟨b, w, h, -, hb, -, -, he⟩ := hdf5_write hs (fun n => by rw [hok]; rfl) H hz (some none)
  cases b with
  | false =>
    obtain ⟨c, n, -, h1, h2⟩ := hb rfl
    rw [hok] at h2
    simp [h1] at h2
  | true =>
    have h2 := h
    simp only [writeHdf5, closeSteps] at h2
    rw [show ∀ l : List (Step α), chk env .fcreate always 1 (fun k => { k with file := true }) ::
        (l ++ [grpClose env "PC_Exit", grpClose env "PC_Start", grpClose env "Input", chkOn env .fclose always (-1) id]) =
        (chk env .fcreate always 1 (fun k => { k with file := true }) :: (l ++ [grpClose env "PC_Exit", grpClose env "PC_Start",
        grpClose env "Input"])) ++ [chkOn env .fclose always (-1) id] from fun l => by simp] at h2
    obtain ⟨n, hn⟩ := seqAll_last h2
    rw [hok] at hn
    obtain ⟨c, hc⟩ := he ⟨_, hn, rfl⟩
    exact ⟨w, c, h, hn, hc⟩

/-- Finding: the results point to the source they came from; once it is released, the file can no longer be written. -/
theorem hdf5_source_needed {env : Env} (hs : env.Stacks) (hok : ∀ c n, env.ok c n = true) {te : TE α} {ev : Events α} (H : Holds te ev) (e : EArg) :
    writeHdf5 env true (some te) none e = .ub := by
  have h0 : Good e (W.initial (α := α) e).k 0 (W.initial e) := ⟨rfl, rfl, by simp [W.initial], Or.inl ⟨rfl, by simp [W.initial]⟩⟩
  have main : ∃ k i, Spec env e (Good e (W.initial (α := α) e).k 0)
      (seqAll (chk env .fcreate always 1 (fun k => { k with file := true }) :: (photonSteps env te ++ extSteps env te ++ intSteps env te)))
      (Good e k i) := by
    refine ⟨_, _, Spec.seq (chk_good hs (by rintro (h | h) <;> cases h) rfl) (Spec.append (Spec.append (photons_good hs H rfl rfl rfl rfl)
      (ext_good hs H (fun n => hok _ n) rfl rfl ?_ ?_)) (int_good hs H (fun n => hok _ n) rfl rfl ?_ ?_))⟩
    · simp [K.adds, W.initial]
    · intro d hd
      simp only [K.adds, W.initial, List.append_nil, List.mem_reverse] at hd
      exact photonFile_grp _ (by decide) (by decide) (by decide) d hd
    · simp only [K.adds, W.initial]; split_ifs <;> simp
    · intro d hd
      simp only [K.adds, W.initial, List.append_nil, List.mem_append, List.mem_reverse] at hd
      rcases hd with hd | hd
      · exact extFile_grp _ (by decide) d hd
      · exact photonFile_grp _ (by decide) (by decide) (by decide) d hd
  obtain ⟨k, i, main⟩ := main
  obtain ⟨b, w, h1, h2, h3⟩ := main _ h0
  cases b with
  | false =>
    obtain ⟨x, -, -, -, n, hn⟩ := (h3 rfl).log
    rw [hok] at hn; cases hn
  | true =>
    simp only [writeHdf5, Bool.not_true, Bool.false_eq_true, if_false, inputSteps]
    rw [List.append_assoc, ← List.cons_append, seqAll_append, h1]
    rfl

/-- Finding: when writing a dataset fails, the file (and the dataspace) stay open. -/
theorem hdf5_failure_leaks {env : Env} (hs : env.Stacks) (hok : ∀ c n, env.ok c n = !decide (c = .dcreate)) (te : TE α) (inp : Option (Inp α)) (e : EArg) :
    ∃ w, writeHdf5 env true (some te) inp e = .ok (false, w) ∧ w.k.file = true ∧ w.ids = 2 := by
  obtain ⟨c, hc⟩ := raise_ok env hs (⟨⟨true, [], [], false, false, 0⟩, 2, [(.fcreate, true), (.screate, true), (.dcreate, false)], e⟩ : W α)
  refine ⟨⟨⟨true, [], [], false, false, 0⟩, 2, [(.fcreate, true), (.screate, true), (.dcreate, false)], e.set c⟩, ?_, rfl, rfl⟩
  obtain ⟨rest, hr⟩ : ∃ rest, photonSteps env te ++ extSteps env te ++ intSteps env te ++ inputSteps env inp ++ closeSteps env =
      writeDataset env "" "Energies" [te.energies.length] (fun i => te.energies[i]?) "keV" :: rest := by
    unfold photonSteps
    simp only [List.cons_append]
    exact ⟨_, rfl⟩
  simp only [writeHdf5, hr]
  simp only [Bool.not_true, Bool.false_eq_true, if_false, seqAll, chk, call, hok, always, writeDataset, W.initial, id]
  simp [hc]

end Polycap.H5
