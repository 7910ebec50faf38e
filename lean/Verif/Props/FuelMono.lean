import Verif.Sim

/-!
# Following a loop further changes nothing

`fuel` and `k` bound the loops and the recursion of the model. A result obtained within some bounds is the result for all larger bounds: the outcome of a
launch, or of a photon drawn and launched, does not depend on the bounds.
-/
namespace Polycap
open CNum

namespace Upto

/-- `y` is `x`, or `x` was cut short -/
def Le {A : Type} (x y : Out A) : Prop := x = .fuel ∨ x = y

theorem Le.refl {A : Type} (x : Out A) : Le x x := Or.inr rfl
theorem Le.fuel {A : Type} (y : Out A) : Le .fuel y := Or.inl rfl
theorem Le.ok {A : Type} {x y : Out A} (h : Le x y) {a : A} (e : x = .ok a) : y = .ok a := by
  rcases h with h | h
  · rw [h] at e; cases e
  · rw [← h, e]
theorem Le.bind {A B : Type} {x y : Out A} {f g : A → Out B} (h : Le x y) (hf : ∀ a, Le (f a) (g a)) : Le (x >>= f) (y >>= g) := by
  rcases h with h | h
  · rw [h]; exact Or.inl rfl
  · subst h
    cases x with
    | ok a => exact hf a
    | ub => exact Or.inr rfl
    | fuel => exact Or.inl rfl
theorem Le.ite {A : Type} {p : Prop} [Decidable p] {a b c d : Out A} (h1 : Le a c) (h2 : Le b d) : Le (if p then a else b) (if p then c else d) := by
  split
  · exact h1
  · exact h2

variable {α : Type} [CNum α]

theorem wallStep_le (p : Profile α) (ns qi ri : Int) (c d : V3 α) : ∀ (g g' : Nat) (dist : α) (zid : Nat), g ≤ g' →
    Le (wallStep p ns qi ri c d g dist zid) (wallStep p ns qi ri c d g' dist zid)
  | 0, _, _, _, _ => Or.inl rfl
  | g + 1, 0, _, _, h => absurd h (by omega)
  | g + 1, g' + 1, dist, zid, h => by
    simp only [wallStep]
    exact Le.ite (Le.refl _) (Le.ite (wallStep_le p ns qi ri c d g g' _ _ (by omega)) (Le.refl _))

theorem wallHex_le (p : Profile α) (ns : Int) (c d : V3 α) (g g' : Nat) (hg : g ≤ g') : ∀ (f f' : Nat) (qi ri : Int) (dist : α) (zid : Nat) (cur : V3 α), f ≤ f' →
    Le (wallHex p ns c d g f qi ri dist zid cur) (wallHex p ns c d g' f' qi ri dist zid cur)
  | 0, _, _, _, _, _, _, _ => Or.inl rfl
  | f + 1, 0, _, _, _, _, _, h => absurd h (by omega)
  | f + 1, f' + 1, qi, ri, dist, zid, cur, h => by
    simp only [wallHex]
    refine Le.bind (wallStep_le p ns qi ri c d g g' dist zid hg) ?_
    rintro (dd | ⟨dist, zid, ph, q, r⟩)
    · exact Le.refl _
    · exact Le.ite (Le.refl _) (Le.ite (wallHex_le p ns c d g g' hg f f' _ _ _ _ _ (by omega)) (Le.refl _))

theorem traceWall_le (D : Descr α) {fuel fuel' : Nat} (h : fuel ≤ fuel') (c d : V3 α) : Le (traceWall D fuel c d) (traceWall D fuel' c d) := by
  simp only [traceWall]
  exact Le.ite (Le.refl _) (Le.ite (Le.refl _) (Le.ite (Le.refl _) (wallHex_le _ _ _ _ _ _ h _ _ _ _ _ _ _ h)))

omit [CNum α] in
theorem traceLoop_le {tr tr' : Nat → Photon α → Out (Int × Nat × Photon α)} (h : ∀ ix P, Le (tr ix P) (tr' ix P)) : ∀ (n : Nat) (iesc : Int) (ix : Nat) (P : Photon α),
    Le (traceLoop tr n iesc ix P) (traceLoop tr' n iesc ix P)
  | 0, _, _, _ => Le.refl _
  | n + 1, _, ix, P => by
    simp only [traceLoop]
    exact Le.bind (h ix P) fun x => Le.ite (Le.refl _) (traceLoop_le h n _ _ _)

theorem reflectLeak_le (D : Descr α) {tr tr' : Int → Int → Nat → Photon α → Out (Int × Nat × Photon α)} (h : ∀ q r ix P, Le (tr q r ix P) (tr' q r ix P))
    (P : Photon α) (w : Wall α) (wl : List α) (iesc : Int) : Le (reflectLeak D tr P w wl iesc) (reflectLeak D tr' P w wl iesc) := by
  simp only [reflectLeak]
  refine Le.ite (Le.refl _) (Le.ite (Le.refl _) (Le.ite ?_ (Le.refl _)))
  generalize photonNew (along P.exitC P.exitD w.d) P.exitD P.exitE = T
  cases T with
  | none => exact Le.refl _
  | some T => exact Le.bind (traceLoop_le (h w.q w.r) _ _ _ _) fun x => Le.refl _

theorem reflectBody_le (D : Descr α) (leak : Bool) {fuel fuel' : Nat} (hf : fuel ≤ fuel') {tr tr' : Int → Int → Nat → Photon α → Out (Int × Nat × Photon α)}
    (h : ∀ q r ix P, Le (tr q r ix P) (tr' q r ix P)) (n : V3 α) (P : Photon α) : Le (reflectBody D leak fuel tr n P) (reflectBody D leak fuel' tr' n P) := by
  simp only [reflectBody]
  refine Le.ite (Le.refl _) (Le.bind ?_ fun w => ?_)
  · unfold wallOf
    exact Le.ite (traceWall_le D hf _ _) (Le.refl _)
  · simp only [reflectRest]
    exact Le.ite (Le.refl _) (Le.ite (Le.refl _) (Le.ite (Le.refl _) (Le.ite (reflectLeak_le D h _ _ _ _) (Le.refl _))))

theorem capilTrace_le (D : Descr α) {rf rf' : V3 α → Photon α → Out (Int × Photon α)} (h : ∀ n P, Le (rf n P) (rf' n P)) (capx capy : Nat → α) (ix : Nat) (P : Photon α) :
    Le (capilTrace D rf capx capy ix P) (capilTrace D rf' capx capy ix P) := by
  simp only [capilTrace]
  split
  · exact Le.refl _
  · exact Le.refl _
  · simp only [traceHit]
    exact Le.ite (Le.refl _) (Le.ite (Le.refl _) (Le.ite (Le.refl _) (Le.ite (Le.refl _) (Le.bind (h _ _) fun x => Le.refl _))))

theorem reflect_le (D : Descr α) (leak : Bool) {fuel fuel' : Nat} (hf : fuel ≤ fuel') : ∀ (k k' : Nat) (n : V3 α) (P : Photon α), k ≤ k' →
    Le (reflect D leak fuel k n P) (reflect D leak fuel' k' n P)
  | 0, _, _, _, _ => Or.inl rfl
  | k + 1, 0, _, _, h => absurd h (by omega)
  | k + 1, k' + 1, n, P, h => by
    simp only [reflect]
    exact reflectBody_le D leak hf (fun q r ix T => capilTrace_le D (fun n P => reflect_le D leak hf k k' n P (by omega)) _ _ _ _) n P

theorem trace_le (D : Descr α) (leak : Bool) {fuel fuel' k k' : Nat} (hf : fuel ≤ fuel') (hk : k ≤ k') (capx capy : Nat → α) (ix : Nat) (P : Photon α) :
    Le (trace D leak fuel k capx capy ix P) (trace D leak fuel' k' capx capy ix P) :=
  capilTrace_le D (fun n P => reflect_le D leak hf k k' n P hk) capx capy ix P

theorem launch_le (lib : Xray α) (D : Option (Descr α)) (leak : Bool) {fuel fuel' k k' : Nat} (hf : fuel ≤ fuel') (hk : k ≤ k') (P : Option (Photon α)) (es : Option (List α)) (wptr : Bool) :
    Le (launch lib D leak fuel k P es wptr) (launch lib D leak fuel' k' P es wptr) := by
  have body : ∀ (D : Descr α) (P : Photon α) (es : List α), Le (launchBody lib D leak fuel k P es) (launchBody lib D leak fuel' k' P es) := by
    intro D P es
    simp only [launchBody]
    generalize launchCap D (launchInit lib D es P).startC = cp
    cases cp with
    | none => exact Le.refl _
    | some qr =>
      refine Le.ite (Le.ite (Le.bind (reflect_le D leak hf k k' _ _ hk) fun x => Le.refl _) (Le.ite (Le.bind (traceWall_le D hf _ _) fun w => ?_) (Le.refl _))) ?_
      · simp only [launchWall]
        refine Le.ite (Le.refl _) (Le.ite (Le.refl _) (Le.ite (Le.refl _) (Le.ite (Le.refl _) ?_)))
        exact Le.bind (traceLoop_le (fun ix P => trace_le D leak hf hk _ _ _ _) _ _ _ _) fun x => Le.refl _
      · simp only [launchInside]
        exact Le.bind (traceLoop_le (fun ix P => trace_le D leak hf hk _ _ _ _) _ _ _ _) fun x => Le.refl _
  unfold launch
  cases P with
  | none => exact Le.refl _
  | some P =>
    cases es with
    | none => exact Le.refl _
    | some es =>
      refine Le.ite (Le.refl _) ?_
      cases D with
      | none => exact Le.refl _
      | some D => exact Le.bind (body D P es) fun x => Le.refl _

theorem rejLoop_le (ext0 : α) (u : Nat → α) : ∀ (f f' n : Nat), f ≤ f' → Le (rejLoop ext0 u f n) (rejLoop ext0 u f' n)
  | 0, _, _, _ => Or.inl rfl
  | f + 1, 0, _, h => absurd h (by omega)
  | f + 1, f' + 1, n, h => by
    simp only [rejLoop]
    exact Le.ite (rejLoop_le ext0 u f f' _ (by omega)) (Le.refl _)

theorem getPhoton_le (S : Src α) (D : Descr α) (u : Nat → α) {fuel fuel' : Nat} (hf : fuel ≤ fuel') (n : Nat) : Le (getPhoton S D u fuel n) (getPhoton S D u fuel' n) := by
  simp only [getPhoton]
  refine Le.bind ?_ fun a => Le.refl _
  simp only [srcAim]
  exact Le.ite (Le.ite (Le.refl _) (Le.bind (rejLoop_le _ _ _ _ _ hf) fun p => Le.refl _)) (Le.refl _)

/-- **A photon drawn and launched comes to the same end within all bounds that suffice.** -/
theorem attempt_le (lib : Xray α) (S : Src α) (D : Descr α) (leak : Bool) {fuel fuel' k k' : Nat} (hf : fuel ≤ fuel') (hk : k ≤ k') (u : Nat → α) (n : Nat) :
    Le (attempt lib S D leak fuel k u n) (attempt lib S D leak fuel' k' u n) := by
  unfold attempt
  exact Le.bind (getPhoton_le S D u hf n) fun x => Le.bind (launch_le lib _ leak hf hk _ _ _) fun y => Le.refl _

/-- two results within any bounds agree -/
theorem attempt_unique {lib : Xray α} {S : Src α} {D : Descr α} {leak : Bool} {fuel fuel' k k' : Nat} {u : Nat → α} {n : Nat} {x y : Attempt α × Nat}
    (h1 : attempt lib S D leak fuel k u n = .ok x) (h2 : attempt lib S D leak fuel' k' u n = .ok y) : x = y := by
  have e1 := (attempt_le lib S D leak (le_max_left fuel fuel') (le_max_left k k') u n).ok h1
  have e2 := (attempt_le lib S D leak (le_max_right fuel fuel') (le_max_right k k') u n).ok h2
  rw [e1] at e2
  injection e2

end Upto
end Polycap
