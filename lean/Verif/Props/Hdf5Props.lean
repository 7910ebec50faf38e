import Verif.Hdf5
import Verif.Props.H5TableProps
import Verif.Props.SimReal
import Mathlib.Data.List.Basic
import Mathlib.Tactic.Common
import Mathlib.Tactic.Linarith

/-!
# C38, C39: writing the results to an HDF5 file
-/
namespace Polycap.H5
open CNum

variable {α : Type}

/-! ## Buffers -/

theorem readBuf_ok (f : Nat → Option α) (xs : List α) : ∀ n, n ≤ xs.length → (∀ i < n, f i = xs[i]?) → readBuf f n = .ok (xs.take n)
  | 0, _, _ => by simp [readBuf]
  | n + 1, hn, h => by
    rw [readBuf, readBuf_ok f xs n (by omega) (fun i hi => h i (by omega)), Out.bind_ok, h n (by omega),
      List.getElem?_eq_getElem (by omega)]
    simp

/-- element `i` of equally long rows one behind the other -/
theorem flatten_uniform {n : Nat} (h0 : 0 < n) : ∀ (Ls : List (List α)), (∀ l ∈ Ls, l.length = n) → ∀ i,
    Ls.flatten[i]? = (Ls[i / n]?).bind (fun l => l[i % n]?)
  | [], _, i => by simp
  | l :: Ls, h, i => by
    have hl : l.length = n := h l (by simp)
    rw [List.flatten_cons]
    by_cases hi : i < n
    · rw [List.getElem?_append_left (by omega), Nat.div_eq_of_lt hi, Nat.mod_eq_of_lt hi]; simp
    · obtain ⟨k, rfl⟩ := Nat.exists_eq_add_of_le (Nat.le_of_not_lt hi)
      rw [List.getElem?_append_right (by omega), hl, Nat.add_sub_cancel_left, flatten_uniform h0 Ls (fun l hl => h l (by simp [hl])),
        Nat.add_div_left _ h0, Nat.add_mod_left]
      simp

theorem fillAt_ok (n size j : Nat) (hj : j < n) : ∀ (rows : List (Nat → Option α)) (k : Nat) (b : Nat → Option α),
    (∀ r ∈ rows, (r j).isSome) → n * (k + rows.length) ≤ size →
    ∃ b', fillAt size n j k rows b = .ok b' ∧
      ∀ i, b' i = if i % n = j ∧ k ≤ i / n ∧ i / n < k + rows.length then (rows[i / n - k]?).bind (fun r => r j) else b i
  | [], k, b, _, _ => ⟨b, rfl, fun i => by rw [if_neg (by rintro ⟨-, h1, h2⟩; simp only [List.length_nil] at h2; omega)]⟩
  | r :: rs, k, b, h, hs => by
    obtain ⟨v, hv⟩ := Option.isSome_iff_exists.1 (h r (by simp))
    have h0 : 0 < n := by omega
    simp only [List.length_cons] at hs
    have hle : n * (k + 1) ≤ size := Nat.le_trans (Nat.mul_le_mul_left n (by omega)) hs
    have hjk : j + k * n < size := by
      have : n * (k + 1) = k * n + n := by ring
      omega
    obtain ⟨b', e, hb⟩ := fillAt_ok n size j hj rs (k + 1) (upd1 b (j + k * n) (some v)) (fun r hr => h r (by simp [hr]))
      (by rw [show k + 1 + rs.length = k + (rs.length + 1) by omega]; exact hs)
    refine ⟨b', by simp [fillAt, hv, hjk, e], fun i => ?_⟩
    rw [hb i]
    have hdm := Nat.div_add_mod i n
    by_cases hm : i % n = j
    · rcases Nat.lt_trichotomy (i / n) k with hlt | heq | hgt
      · rw [if_neg (by omega), if_neg (by omega), upd1, if_neg]
        intro hi
        rw [hi, Nat.add_mul_div_right _ _ h0, Nat.div_eq_of_lt hj] at hlt
        omega
      · rw [if_neg (by omega), if_pos ⟨hm, by omega, by simp; omega⟩, heq, Nat.sub_self]
        have : i = j + k * n := by
          rw [← hdm, hm, heq]; ring
        simp [upd1, this, hv]
      · by_cases hu : i / n < k + (rs.length + 1)
        · rw [if_pos ⟨hm, by omega, by omega⟩, if_pos ⟨hm, by omega, by simpa using hu⟩,
            show i / n - k = (i / n - (k + 1)) + 1 by omega, List.getElem?_cons_succ]
        · rw [if_neg (by omega), if_neg (by simp; omega), upd1, if_neg]
          intro hi
          rw [hi, Nat.add_mul_div_right _ _ h0, Nat.div_eq_of_lt hj] at hgt
          omega
    · rw [if_neg (by tauto), if_neg (by tauto), upd1, if_neg]
      intro hi
      apply hm
      rw [hi, Nat.add_mul_mod_self_right, Nat.mod_eq_of_lt hj]

theorem fillFrom_ok (n size : Nat) (rows : List (Nat → Option α)) (hs : n * rows.length ≤ size) :
    ∀ (js : List Nat) (b : Nat → Option α), (∀ j ∈ js, j < n) → (∀ r ∈ rows, ∀ j ∈ js, (r j).isSome) →
    ∃ b', fillFrom size n rows js b = .ok b' ∧
      ∀ i, b' i = if i % n ∈ js ∧ i / n < rows.length then (rows[i / n]?).bind (fun r => r (i % n)) else b i
  | [], b, _, _ => ⟨b, rfl, fun i => by simp⟩
  | j :: js, b, hj, hr => by
    obtain ⟨b1, e1, h1⟩ := fillAt_ok n size j (hj j (by simp)) rows 0 b (fun r h => hr r h j (by simp)) (by simpa using hs)
    obtain ⟨b2, e2, h2⟩ := fillFrom_ok n size rows hs js b1 (fun j h => hj j (by simp [h])) (fun r h j h' => hr r h j (by simp [h']))
    refine ⟨b2, by simp [fillFrom, e1, e2], fun i => ?_⟩
    rw [h2 i, h1 i]
    by_cases hu : i / n < rows.length
    · by_cases hm : i % n ∈ js
      · rw [if_pos ⟨hm, hu⟩, if_pos ⟨by simp [hm], hu⟩]
      · by_cases he : i % n = j
        · rw [if_neg (by tauto), if_pos ⟨he, Nat.zero_le _, by omega⟩, if_pos ⟨by simp [he], hu⟩, Nat.sub_zero, he]
        · rw [if_neg (by tauto), if_neg (by tauto), if_neg (by simp [he, hm])]
    · rw [if_neg (by tauto), if_neg (by rintro ⟨-, -, h⟩; omega), if_neg (by tauto)]

/-- The copy loop turns rows into one block, row after row. -/
theorem fill_read (n : Nat) (Ls : List (List α)) (hL : ∀ l ∈ Ls, l.length = n) (rows : List (Nat → Option α))
    (hr : rows.length = Ls.length) (hrow : ∀ k (h : k < rows.length) (h' : k < Ls.length), ∀ j < n, rows[k] j = Ls[k][j]?) (size : Nat)
    (hs : size = n * Ls.length) :
    ∃ b, fillFrom size n rows (List.range n) (fun _ => none) = .ok b ∧ readBuf b (n * Ls.length) = .ok Ls.flatten := by
  obtain ⟨b, e, h⟩ := fillFrom_ok n size rows (by rw [hr, hs]) (List.range n) (fun _ => none)
    (fun j => List.mem_range.1) (fun r hr' j hj => by
      obtain ⟨k, hk, rfl⟩ := List.getElem_of_mem hr'
      have hj := List.mem_range.1 hj
      have := hL _ (List.getElem_mem (hr ▸ hk))
      rw [hrow k hk (hr ▸ hk) j hj, List.getElem?_eq_getElem (by omega)]
      rfl)
  have hlen : Ls.flatten.length = n * Ls.length := by
    rw [List.length_flatten, List.map_congr_left (g := fun _ => n) hL]
    simp [Nat.mul_comm]
  refine ⟨b, e, ?_⟩
  rcases Nat.eq_zero_or_pos n with rfl | h0
  · simp only [Nat.zero_mul] at hlen ⊢
    rw [List.length_eq_zero_iff.1 hlen]; rfl
  rw [readBuf_ok b Ls.flatten _ (by omega), List.take_of_length_le (by omega)]
  intro i hi
  have hd : i / n < Ls.length := Nat.div_lt_of_lt_mul hi
  have hm : i % n < n := Nat.mod_lt _ h0
  rw [h i, if_pos ⟨List.mem_range.2 hm, hr ▸ hd⟩, flatten_uniform h0 Ls hL, List.getElem?_eq_getElem (hr ▸ hd), List.getElem?_eq_getElem hd]
  exact hrow _ _ _ _ hm

/-! ## The bookkeeping of failures -/

/-- the calls whose failure does not make the function return `false` -/
def isClose (c : Call) : Prop := c = .gclose ∨ c = .fclose

/-- `c` is another call, and the environment did make one fail -/
def Blame (env : Env) (c : Call) : Prop := ¬isClose c ∧ ∃ n, env.ok c n = false

def failedCloses (l : List (Call × Bool)) : Nat := l.countP (fun x => !x.2)

/-- nothing failed so far but closing; the error argument tells -/
structure Good (e : EArg) (k : K α) (i : Int) (w : W α) : Prop where
  k : w.k = k
  ids : w.ids = i + failedCloses w.log
  log : ∀ x ∈ w.log, x.2 = false → isClose x.1
  err : (w.err = e ∧ ∀ x ∈ w.log, x.2 = true) ∨ ∃ c, w.err = e.set c ∧ ∃ x ∈ w.log, x.2 = false

/-- something else than closing failed and the function has not noticed yet -/
structure Doomed (env : Env) (e : EArg) (k : K α) (w : W α) : Prop where
  k : w.k = k
  log : ∃ x ∈ w.log, x.2 = false ∧ Blame env x.1
  err : w.err = e ∨ ∃ c, w.err = e.set c

/-- something else than closing failed, the function returns `false` with an error set -/
structure Bad (env : Env) (e : EArg) (w : W α) : Prop where
  log : ∃ x ∈ w.log, x.2 = false ∧ Blame env x.1
  err : ∃ c, w.err = e.set c

theorem set_set (e : EArg) (c d : Code) : (e.set c).set d = e.set c := by
  rcases e with _ | _ | _ <;> rfl

/-- `s` takes `P` to `Q`, or stops with a failure -/
def Spec (env : Env) (e : EArg) (P : W α → Prop) (s : Step α) (Q : W α → Prop) : Prop :=
  ∀ w, P w → ∃ b w', s w = .ok (b, w') ∧ (b = true → Q w') ∧ (b = false → Bad env e w')

variable {env : Env}

theorem Spec.seq {e : EArg} {P Q R : W α → Prop} {s : Step α} {ss : List (Step α)} (h : Spec env e P s Q) (h' : Spec env e Q (seqAll ss) R) :
    Spec env e P (seqAll (s :: ss)) R := fun w hw => by
  obtain ⟨b, w1, e1, hq, hb⟩ := h w hw
  cases b with
  | true =>
    obtain ⟨b, w2, e2, h2⟩ := h' w1 (hq rfl)
    exact ⟨b, w2, by simp [seqAll, e1, e2], h2⟩
  | false => exact ⟨false, w1, by simp [seqAll, e1], by simp, fun _ => hb rfl⟩

theorem Spec.nil {e : EArg} {P : W α → Prop} : Spec env e P (seqAll []) P := fun w h => ⟨true, w, rfl, fun _ => h, by simp⟩

theorem seqAll_append (s1 s2 : List (Step α)) (w : W α) :
    seqAll (s1 ++ s2) w = (do let x ← seqAll s1 w; if x.1 then seqAll s2 x.2 else .ok (false, x.2)) := by
  induction s1 generalizing w with
  | nil => simp [seqAll]
  | cons s ss ih =>
    simp only [List.cons_append, seqAll]
    cases h : s w with
    | ok x =>
      simp only [Out.bind_ok]
      cases hx : x.1 with
      | true => simp [ih]
      | false => simp
    | ub => rfl
    | fuel => rfl

theorem Spec.append {e : EArg} {P Q R : W α → Prop} {s1 s2 : List (Step α)} (h : Spec env e P (seqAll s1) Q) (h' : Spec env e Q (seqAll s2) R) :
    Spec env e P (seqAll (s1 ++ s2)) R := fun w hw => by
  obtain ⟨b, w1, e1, hq, hb⟩ := h w hw
  rw [seqAll_append, e1, Out.bind_ok]
  cases b with
  | true =>
    obtain ⟨b, w2, e2, h2⟩ := h' w1 (hq rfl)
    exact ⟨b, w2, by simp [e2], h2⟩
  | false => exact ⟨false, w1, by simp, by simp, fun _ => hb rfl⟩

/-- HDF5 leaves a record of every failure. -/
def Env.Stacks (env : Env) : Prop := ∀ n, (env.stack n).recs ≠ []

theorem raise_ok (env : Env) (hs : env.Stacks) (w : W α) : ∃ c, raise env w = .ok { w with err := w.err.set c } := by
  obtain ⟨c, hc⟩ := setException_sets env.tables (env.stack (w.log.length - 1)) (hs _) w.err
  exact ⟨c, by simp [raise, hc]⟩

theorem Good.bad {e : EArg} {k : K α} {i : Int} {w : W α} (h : Good e k i w) {c : Call} (hc : Blame env c) (d : Code) :
    Bad env e { w with log := w.log ++ [(c, false)], err := w.err.set d } := by
  refine ⟨⟨(c, false), by simp, rfl, hc⟩, ?_⟩
  rcases h.err with ⟨h, -⟩ | ⟨c', h, -⟩
  · exact ⟨d, by rw [h]⟩
  · exact ⟨c', by rw [h, set_set]⟩

theorem Doomed.bad {e : EArg} {k : K α} {w : W α} (h : Doomed env e k w) (c : Call) (d : Code) :
    Bad env e { w with log := w.log ++ [(c, false)], err := w.err.set d } := by
  obtain ⟨x, hx, h1, h2⟩ := h.log
  refine ⟨⟨x, by simp [hx], h1, h2⟩, ?_⟩
  rcases h.err with h | ⟨c', h⟩
  · exact ⟨d, by rw [h]⟩
  · exact ⟨c', by rw [h, set_set]⟩

theorem Good.step {e : EArg} {k : K α} {i : Int} {w : W α} (h : Good e k i w) (c : Call) (d : Int) (eff : K α → K α) :
    Good e (eff k) (i + d) { w with k := eff w.k, ids := w.ids + d, log := w.log ++ [(c, true)] } where
  k := by simp [h.k]
  ids := by
    have := h.ids
    simp only [failedCloses, List.countP_append] at this ⊢
    simp; omega
  log := by
    intro x hx hf
    rcases List.mem_append.1 hx with hx | hx
    · exact h.log x hx hf
    · simp only [List.mem_singleton] at hx; subst hx; cases hf
  err := by
    rcases h.err with ⟨h1, h2⟩ | ⟨c', h1, x, hx, h2⟩
    · refine Or.inl ⟨h1, fun x hx => ?_⟩
      rcases List.mem_append.1 hx with hx | hx
      · exact h2 x hx
      · simp only [List.mem_singleton] at hx; subst hx; rfl
    · exact Or.inr ⟨c', h1, x, by simp [hx], h2⟩

theorem Doomed.step {e : EArg} {k : K α} {w : W α} (h : Doomed env e k w) (c : Call) (d : Int) (eff : K α → K α) :
    Doomed env e (eff k) { w with k := eff w.k, ids := w.ids + d, log := w.log ++ [(c, true)] } where
  k := by simp [h.k]
  log := by obtain ⟨x, hx, h1⟩ := h.log; exact ⟨x, by simp [hx], h1⟩
  err := h.err

theorem Doomed.fail {e : EArg} {k : K α} {w : W α} (h : Doomed env e k w) (c : Call) :
    Doomed env e k { w with log := w.log ++ [(c, false)] } where
  k := h.k
  log := by obtain ⟨x, hx, h1⟩ := h.log; exact ⟨x, by simp [hx], h1⟩
  err := h.err

section steps
variable (hs : env.Stacks) {e : EArg}
include hs

theorem chk_good {k : K α} {i : Int} {c : Call} (hc : ¬isClose c) {pre : K α → Bool} {d : Int} {eff : K α → K α} (hp : pre k = true) :
    Spec env e (Good e k i) (chk env c pre d eff) (Good e (eff k) (i + d)) := fun w h => by
  unfold chk call
  cases ho : env.ok c w.log.length with
  | true => exact ⟨true, _, by rw [h.k, hp]; rfl, fun _ => by have := h.step c d eff; rwa [h.k] at this, by simp⟩
  | false =>
    obtain ⟨x, hx⟩ := raise_ok env hs { w with log := w.log ++ [(c, false)] }
    exact ⟨false, _, by simp [hx], by simp, fun _ => h.bad ⟨hc, _, ho⟩ x⟩

theorem chk_doomed {k : K α} {c : Call} {pre : K α → Bool} {d : Int} {eff : K α → K α} :
    Spec env e (Doomed env e k) (chk env c pre d eff) (fun w => pre k = true ∧ Doomed env e (eff k) w) := fun w h => by
  unfold chk call
  cases ho : (env.ok c w.log.length && pre w.k) with
  | true =>
    simp only [Bool.and_eq_true] at ho
    exact ⟨true, _, rfl, fun _ => ⟨by rw [← h.k]; exact ho.2, h.step c d eff⟩, by simp⟩
  | false =>
    obtain ⟨x, hx⟩ := raise_ok env hs { w with log := w.log ++ [(c, false)] }
    exact ⟨false, _, by simp [hx], by simp, fun _ => h.bad c x⟩

omit hs in
theorem try_good {k : K α} {i : Int} {c : Call} (hc : ¬isClose c) {d : Int} {eff : K α → K α} :
    Spec env e (Good e k i) (try' env c always d eff) (fun w => Good e (eff k) (i + d) w ∨ Doomed env e k w) := fun w h => by
  unfold try' call
  cases ho : env.ok c w.log.length with
  | true => exact ⟨true, _, rfl, fun _ => Or.inl (h.step c d eff), by simp⟩
  | false =>
    refine ⟨true, _, rfl, fun _ => Or.inr ⟨h.k, ⟨(c, false), by simp, rfl, hc, _, ho⟩, ?_⟩, by simp⟩
    rcases h.err with h | ⟨x, h, -⟩
    · exact Or.inl h.1
    · exact Or.inr ⟨x, h⟩

omit hs in
theorem try_doomed {k : K α} {c : Call} {d : Int} {eff : K α → K α} :
    Spec env e (Doomed env e k) (try' env c always d eff) (fun w => Doomed env e (eff k) w ∨ Doomed env e k w) := fun w h => by
  unfold try' call
  cases ho : env.ok c w.log.length with
  | true => exact ⟨true, _, rfl, fun _ => Or.inl (h.step c d eff), by simp⟩
  | false => exact ⟨true, _, rfl, fun _ => Or.inr (h.fail c), by simp⟩

theorem chkOn_good {k : K α} {i : Int} {c : Call} (hc : isClose c) {pre : K α → Bool} (hp : pre k = true) :
    Spec env e (Good e k i) (chkOn env c pre (-1) id) (Good e k (i - 1)) := fun w h => by
  unfold chkOn call
  cases ho : env.ok c w.log.length with
  | true => exact ⟨true, _, by rw [h.k, hp]; rfl, fun _ => by have := h.step c (-1) id; rwa [h.k] at this, by simp⟩
  | false =>
    obtain ⟨x, hx⟩ := raise_ok env hs { w with log := w.log ++ [(c, false)] }
    refine ⟨true, { w with log := w.log ++ [(c, false)], err := w.err.set x }, by simp [hx], fun _ => ⟨h.k, ?_, ?_, ?_⟩, by simp⟩
    · have := h.ids
      simp only [failedCloses, List.countP_append] at this ⊢
      simp; omega
    · intro x hx hf
      rcases List.mem_append.1 hx with hx | hx
      · exact h.log x hx hf
      · simp only [List.mem_singleton] at hx; subst hx; exact hc
    · refine Or.inr ?_
      rcases h.err with ⟨h1, -⟩ | ⟨c', h1, -⟩
      · exact ⟨x, by simp [h1], (c, false), by simp, rfl⟩
      · exact ⟨c', by simp [h1, set_set], (c, false), by simp, rfl⟩

end steps

theorem Spec.or {e : EArg} {P P' Q : W α → Prop} {s : Step α} (h : Spec env e P s Q) (h' : Spec env e P' s Q) : Spec env e (fun w => P w ∨ P' w) s Q :=
  fun w hw => hw.elim (h w) (h' w)

theorem Spec.imp {e : EArg} {P Q R : W α → Prop} {s : Step α} (h : Spec env e P s Q) (hi : ∀ w, Q w → R w) : Spec env e P s R := fun w hw => by
  obtain ⟨b, w', e1, h1, h2⟩ := h w hw
  exact ⟨b, w', e1, fun hb => hi _ (h1 hb), h2⟩

/-- steps that cannot be reached any more -/
theorem Spec.dead {e : EArg} {P Q : W α → Prop} {s : Step α} (h : ∀ w, ¬P w) : Spec env e P s Q := fun w hw => absurd hw (h w)

theorem Spec.pre {e : EArg} {P P' Q : W α → Prop} {s : Step α} (h : Spec env e P s Q) (hi : ∀ w, P' w → P w) : Spec env e P' s Q :=
  fun w hw => h w (hi w hw)

/-- contents after one more dataset -/
def K.add (k : K α) (d : DSet α) : K α := { k with sets := d :: k.sets }

theorem dwrite_of {e : EArg} {P Q : W α → Prop} {dims : List Nat} {data : Nat → Option α} {xs : List α}
    (hx : readBuf data (dimProd dims) = .ok xs)
    (h : Spec env e P (chk env .dwrite always 0 (fun k => { k with sets := onLast (fun d => { d with vals := some xs }) k.sets })) Q) :
    Spec env e P (dwrite env dims data) Q := fun w hw => by
  simp only [dwrite, hx, Out.bind_ok]
  exact h w hw

section datasets
variable (hs : env.Stacks) {e : EArg}
include hs

theorem writeDataset_good {k : K α} {i : Int} {grp name unit : String} {dims : List Nat} {data : Nat → Option α} {xs : List α}
    (hx : readBuf data (dimProd dims) = .ok xs) (hc : canCreate grp name k = true) (h1 : k.scal = false) (h2 : k.typ = false) :
    Spec env e (Good e k i) (writeDataset env grp name dims data unit) (Good e (k.add ⟨grp, name, dims, some xs, some unit⟩) i) := by
  unfold writeDataset
  have nc : ∀ {c : Call}, c ≠ .gclose → c ≠ .fclose → ¬isClose c := fun a b h => h.elim a b
  refine (chk_good hs (nc (by decide) (by decide)) rfl).seq ?_
  refine (chk_good hs (nc (by decide) (by decide)) (by simpa using hc)).seq ?_
  refine (dwrite_of hx (chk_good hs (nc (by decide) (by decide)) rfl)).seq ?_
  refine (try_good (nc (by decide) (by decide))).seq ?_
  refine Spec.or ?_ ?_
  · refine (try_good (nc (by decide) (by decide))).seq ?_
    refine Spec.or ?_ ?_
    · refine (chk_good hs (nc (by decide) (by decide)) rfl).seq ?_
      refine (chk_good hs (nc (by decide) (by decide)) rfl).seq ?_
      refine (chk_good hs (nc (by decide) (by decide)) rfl).seq ?_
      refine (chk_good hs (nc (by decide) (by decide)) rfl).seq ?_
      refine (chk_good hs (nc (by decide) (by decide)) rfl).seq ?_
      refine (chk_good hs (nc (by decide) (by decide)) rfl).seq ?_
      refine (chk_good hs (nc (by decide) (by decide)) rfl).seq ?_
      refine (chk_good hs (nc (by decide) (by decide)) rfl).seq ?_
      refine Spec.nil.imp (fun w hw => ?_)
      have : i + 1 + 1 + 0 + 1 + 1 + 0 + 1 + 0 + -1 + -1 + -1 + -1 + -1 = i := by ring
      rw [this] at hw
      simpa [K.add, onLast, h1, h2] using hw
    · refine (chk_doomed hs).seq ?_
      exact Spec.dead (by simp [h2])
  · refine (try_doomed).seq ?_
    refine Spec.or ?_ ?_
    · refine (chk_doomed hs).seq ?_
      refine ((chk_doomed hs).pre (fun _ h => h.2)).seq ?_
      exact Spec.dead (by simp [h1])
    · refine (chk_doomed hs).seq ?_
      exact Spec.dead (by simp [h2])

theorem writeDataset_doomed {k : K α} {grp name unit : String} {dims : List Nat} {data : Nat → Option α} 
    (hc : canCreate grp name k = false) {Q : W α → Prop} : Spec env e (Doomed env e k) (writeDataset env grp name dims data unit) Q := by
  unfold writeDataset
  refine (chk_doomed hs).seq ?_
  refine ((chk_doomed hs).pre (fun _ h => h.2)).seq ?_
  exact Spec.dead (by simp [hc])

omit hs in
theorem malloc_good {k : K α} {i : Int} : Spec env e (Good e k i) (mallocTemp env) (Good e { k with live := k.live + 1 } i) := fun w h => by
  unfold mallocTemp call
  cases ho : env.ok .malloc w.log.length with
  | true =>
    refine ⟨true, _, rfl, fun _ => ?_, by simp⟩
    have := h.step .malloc 0 (fun k => { k with live := k.live + 1 })
    rwa [Int.add_zero] at this
  | false => exact ⟨false, _, rfl, by simp, fun _ => h.bad ⟨(by rintro (h | h) <;> cases h), _, ho⟩ .memory⟩

omit hs in
theorem malloc_doomed {k : K α} : Spec env e (Doomed env e k) (mallocTemp env) (Doomed env e { k with live := k.live + 1 }) := fun w h => by
  unfold mallocTemp call
  cases ho : env.ok .malloc w.log.length with
  | true => exact ⟨true, _, rfl, fun _ => h.step .malloc 0 (fun k => { k with live := k.live + 1 }), by simp⟩
  | false => exact ⟨false, _, rfl, by simp, fun _ => h.bad .malloc .memory⟩

omit hs in
theorem free_good {k : K α} {i : Int} : Spec env e (Good e { k with live := k.live + 1 } i) freeTemp (Good e k i) := fun w h =>
  ⟨true, _, rfl, fun _ => ⟨by simp [h.k], h.ids, h.log, h.err⟩, by simp⟩

/-- rows recorded as lists, read through the C arrays -/
def RowsOf (n : Nat) (rows : List (Nat → Option α)) (Ls : List (List α)) : Prop :=
  List.Forall₂ (fun r (l : List α) => l.length = n ∧ ∀ j < n, r j = l[j]?) rows Ls

omit hs in
theorem fill_rows {n : Nat} {rows : List (Nat → Option α)} {Ls : List (List α)} (h : RowsOf n rows Ls) {size : Nat} (hs : size = n * Ls.length) :
    ∃ b, fillFrom size n rows (List.range n) (fun _ => none) = .ok b ∧ readBuf b (n * Ls.length) = .ok Ls.flatten := by
  have h' := List.forall₂_iff_get.1 h
  refine fill_read n Ls (fun l hl => ?_) rows h'.1 (fun k h1 h2 j hj => (h'.2 k h1 h2).2 j hj) size hs
  obtain ⟨k, hk, rfl⟩ := List.getElem_of_mem hl
  exact (h'.2 k (h'.1 ▸ hk) hk).1

theorem tempSet_good {k : K α} {i : Int} {grp name unit : String} {dims : List Nat} {n size : Nat} {rows : List (Nat → Option α)}
    {Ls : List (List α)} (hr : RowsOf n rows Ls) (hz : size = n * Ls.length) (hd : dimProd dims = n * Ls.length)
    (hc : canCreate grp name k = true) (h1 : k.scal = false) (h2 : k.typ = false) :
    Spec env e (Good e k i) (tempSet env grp name dims size n n rows unit) (Good e (k.add ⟨grp, name, dims, some Ls.flatten, some unit⟩) i) := by
  obtain ⟨b, hb, hx⟩ := fill_rows hr hz
  unfold tempSet
  refine malloc_good.seq ?_
  refine Spec.seq (Q := Good e ({ k with live := k.live + 1 }.add ⟨grp, name, dims, some Ls.flatten, some unit⟩) i) (fun w hw => ?_) ?_
  · simp only [hb, Out.bind_ok]
    exact writeDataset_good (k := { k with live := k.live + 1 }) hs (by rw [hd]; exact hx) hc h1 h2 w hw
  · exact (free_good (k := k.add ⟨grp, name, dims, some Ls.flatten, some unit⟩)).seq Spec.nil

theorem tempSet_doomed {k : K α} {grp name unit : String} {dims : List Nat} {n size : Nat} {rows : List (Nat → Option α)}
    {Ls : List (List α)} (hr : RowsOf n rows Ls) (hz : size = n * Ls.length) (hc : canCreate grp name k = false) {Q : W α → Prop} :
    Spec env e (Doomed env e k) (tempSet env grp name dims size n n rows unit) Q := by
  obtain ⟨b, hb, hx⟩ := fill_rows hr hz
  unfold tempSet
  refine malloc_doomed.seq ?_
  refine Spec.seq (Q := fun _ => False) (fun w hw => ?_) (Spec.dead (by simp))
  simp only [hb, Out.bind_ok]
  exact writeDataset_doomed hs (by exact hc) w hw

/-- a group and its first dataset -/
theorem group_good {k : K α} {i : Int} {grp name unit : String} {dims : List Nat} {n size : Nat} {rows : List (Nat → Option α)}
    {Ls : List (List α)} (hr : RowsOf n rows Ls) (hz : size = n * Ls.length) (hd : dimProd dims = n * Ls.length)
    (hg : grp ∉ k.groups) (hne : grp ≠ "") (hn : ∀ d ∈ k.sets, d.grp ≠ grp) (h1 : k.scal = false) (h2 : k.typ = false)
    {ss : List (Step α)} {R : W α → Prop}
    (hR : Spec env e (Good e ({ k with groups := grp :: k.groups }.add ⟨grp, name, dims, some Ls.flatten, some unit⟩) (i + 1)) (seqAll ss) R) :
    Spec env e (Good e k i) (seqAll (grpStep env grp :: tempSet env grp name dims size n n rows unit :: ss)) R := by
  refine (try_good (fun h => by rcases h with h | h <;> cases h)).seq ?_
  refine Spec.or ?_ ?_
  · refine (tempSet_good (k := { k with groups := grp :: k.groups }) hs hr hz hd ?_ h1 h2).seq hR
    simp only [canCreate, List.any_cons, decide_true, Bool.true_or, Bool.or_true, Bool.true_and, List.all_eq_true, Bool.not_eq_true',
      decide_eq_false_iff_not, not_and]
    exact fun d hd he => absurd he (hn d hd)
  · refine (tempSet_doomed hs hr hz ?_).seq (Spec.dead (P := fun _ => False) (by simp))
    simp only [canCreate, Bool.and_eq_false_iff, Bool.or_eq_false_iff, decide_eq_false_iff_not, List.any_eq_false, decide_eq_true_eq]
    exact Or.inl ⟨hne, fun g hg' he => hg (he ▸ hg')⟩

theorem totalSet_good [CNum α] {k : K α} {i : Int} {grp : String} {ne m iStart : Nat} {wts : Nat → Option α} {L : List α}
    (hu : ∀ n, env.ok .mallocU n = true)
    (hr : RowsOf ne [fun j => (leakSum ne wts j m).map (fun s => s /. ofInt (iStart : Int))] [L])
    (hc : canCreate grp "Weight_Total" k = true) (h1 : k.scal = false) (h2 : k.typ = false) :
    Spec env e (Good e k i) (totalSet env grp ne m iStart wts) (Good e (k.add ⟨grp, "Weight_Total", [ne], some L, some "a.u."⟩) i) := fun w hw => by
  obtain ⟨b, hb, hx⟩ := fill_rows hr (size := ne) (by simp)
  have hw' : Good e { k with live := k.live + 1 } i (call env .mallocU always 0 (fun k => { k with live := k.live + 1 }) w).2 := by
    have := hw.step .mallocU 0 (fun k => { k with live := k.live + 1 })
    rw [Int.add_zero] at this
    simpa [call, hu, always] using this
  have hcall : call env .mallocU always 0 (fun k => { k with live := k.live + 1 }) w =
      (true, (call env .mallocU always 0 (fun k => { k with live := k.live + 1 }) w).2) := by
    simp [call, hu, always]
  unfold totalSet
  rw [hcall]
  refine Spec.seq (P := Good e { k with live := k.live + 1 } i)
    (Q := Good e ({ k with live := k.live + 1 }.add ⟨grp, "Weight_Total", [ne], some L, some "a.u."⟩) i) (fun w hw => ?_) ?_ _ hw'
  · simp only [hb, Out.bind_ok]
    refine writeDataset_good (k := { k with live := k.live + 1 }) hs ?_ hc h1 h2 w hw
    simpa [dimProd] using hx
  · exact (free_good (k := k.add ⟨grp, "Weight_Total", [ne], some L, some "a.u."⟩)).seq Spec.nil

end datasets

end Polycap.H5
