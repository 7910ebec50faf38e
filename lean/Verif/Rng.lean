import Verif.Heap

/-!
# Random number generators (`/repo/src/polycap-rng.c`, `/repo/src/polycap-private.h:51-79`, `/repo/python/polycap.pyx:262-279`)

The generator behind (gsl or easyRNG, mt19937) is a parameter: states `γ`, the state for a seed, the next number.
-/
namespace Polycap.Rng
open CM

/-- the external generator -/
structure Gen (γ α : Type) where
  seeded : Nat → γ
  next : γ → α × γ

/-- `struct _polycap_rng` (polycap-private.h:69-71), the external generator object -/
inductive Blk (γ : Type) where
  | rng (g : Ptr)
  | gen (s : γ)

variable {γ α : Type} (G : Gen γ α)

/-- `polycap_rng_set`, polycap-rng.c:89-91 -/
def rngSet (r : Ptr) (seed : Nat) : CM (Blk γ) Unit := do
  match ← load r with
  | .rng g => do
    match ← load g with
    | .gen _ => store g (.gen (G.seeded seed))
    | .rng _ => ub
  | .gen _ => ub

/-- `polycap_rng_new_with_seed`, polycap-rng.c:31-36.  A fresh external generator has the default seed 0.  Neither allocation is checked. -/
def rngNewWithSeed (seed : Nat) : CM (Blk γ) Ptr := do
  let r ← malloc (.rng none)
  let g ← malloc (.gen (G.seeded 0))
  store r (.rng g)
  rngSet G r seed
  pure r

/-- `polycap_rng_alloc`, polycap-rng.c:83-87 -/
def rngAlloc : CM (Blk γ) Ptr := do
  let r ← malloc (.rng none)
  let g ← malloc (.gen (G.seeded 0))
  store r (.rng g)
  pure r

/-- `polycap_rng_uniform`, polycap-rng.c:93-95 -/
def rngUniform (r : Ptr) : CM (Blk γ) α := do
  match ← load r with
  | .rng g => do
    match ← load g with
    | .gen s => do
      let (x, s) := G.next s
      store g (.gen s)
      pure x
    | .rng _ => ub
  | .gen _ => ub

/-- `polycap_rng_free`, polycap-rng.c:75-80 -/
def rngFree (r : Ptr) : CM (Blk γ) Unit :=
  if r = none then pure () else do
  match ← load r with
  | .rng g => do
    free g
    free r
  | .gen _ => ub

/-- what the system offers for a seed: `/dev/urandom` cannot be opened; it can, and gives a number or too few bytes -/
inductive Device where
  | missing
  | bytes (seed : Nat)
  | short

/-- the seed of `polycap_rng_new` (not Windows), polycap-rng.c:57-71; `none`: undefined (`fread` is not checked, so the variable keeps whatever it held;
a remainder of a division by zero).  The remainder is taken to `unsigned long`. -/
def newSeed (dev : Device) (sec usec : Nat) : Option Nat :=
  match dev with
  | .bytes s => some s
  | .short => none
  | .missing => if usec = 0 then none else some (sec % usec)

/-- `polycap_rng_new`, polycap-rng.c:50-74 -/
def rngNew (dev : Device) (sec usec : Nat) : CM (Blk γ) Ptr :=
  match newSeed dev sec usec with
  | none => ub
  | some s => rngNewWithSeed G s

/-! ## Histories -/

inductive Op where
  | new (seed : Nat)
  | draw (i : Nat)
  | free (i : Nat)
  deriving DecidableEq

/-- a program with variables for the generators it made; `none` of the outer option: undefined behaviour -/
def step (op : Op) (vars : List Ptr) : CM (Blk γ) (List Ptr × Option α) :=
  match op with
  | .new s => do
    let r ← rngNewWithSeed G s
    pure (vars ++ [r], none)
  | .draw i => match vars[i]? with
    | some r => do
      let x ← rngUniform G r
      pure (vars, some x)
    | none => ub
  | .free i => match vars[i]? with
    | some r => do
      rngFree r
      pure (vars.set i none, none)
    | none => ub

def run : List Op → List Ptr → CM (Blk γ) (List Ptr × List (Option α))
  | [], vars => pure (vars, [])
  | op :: ops, vars => do
    let (vars, o) ← step G op vars
    let (vars, os) ← run ops vars
    pure (vars, o :: os)
end Polycap.Rng
