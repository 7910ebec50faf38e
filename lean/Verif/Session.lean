import Verif.Sim

/-!
# Histories of API calls

A client program is any list of API calls on the objects it created before.  The heap holds the profile, description and source objects
(with every block they own); a photon is kept as its value together with its `description` member, a result as its value together with
its `source` member (polycap-photon.c:125, polycap-source.c:497): these two members are plain copies of the caller's pointers.

A call that touches memory that is not (or no longer) there is `stale`.  `inner`: the computation inside the call (tracing a photon, running
a simulation) does not come to a regular end on valid inputs; see the properties about `polycap_photon_launch` and
`polycap_source_get_transmission_efficiencies`.
-/
namespace Polycap.Sess
open CNum CM Mem
variable {α : Type} [CNum α]

/-- what a variable of the client holds -/
inductive Var (α : Type) where
  | null
  | prof (p : Ptr)
  | descr (d : Ptr)
  | src (s : Ptr)
  | photon (description : Ptr) (P : Photon α)
  | result (source : Ptr) (te : TE α)
  /-- a photon or result that was freed -/
  | freed

/-- arguments of `polycap_source_new` apart from the description -/
structure SrcPars (α : Type) where
  d_source : α
  src_x : α
  src_y : α
  src_sigx : α
  src_sigy : α
  src_shiftx : α
  src_shifty : α
  hor_pol : α
  energies : List α

/-- API calls; `i` names the object created by the `i`-th creating call of the history (counting from 0).  Arrays are passed as lists
together with their lengths. -/
inductive Op (α : Type) where
  | newProfile (a : ProfArgs α)
  | newProfileFromArrays (nid : Int) (ext cap z : List α)
  | getArray (i : Nat) (fld : ProfField)
  | newDescription (i : Nat) (sig_rough : α) (n_cap : Int) (comp : List (Int × α)) (density : α)
  | getDescrArray (i : Nat) (fld : ProfField)
  | newSource (i : Nat) (s : SrcPars α)
  | newPhoton (i : Nat) (c d E : V3 α)
  | getPhoton (i : Nat) (u : Nat → α) (fuel n : Nat)
  | launch (i : Nat) (energies : List α) (leak : Bool) (fuel k : Nat)
  | simulate (i : Nat) (maxThreads nPhotons : Int) (leak : Bool)
  | readResult (i : Nat)
  | write (i : Nat)
  | free (i : Nat)

/-- what the caller sees of a call -/
inductive Obs (α : Type) where
  /-- a creating call returned a non-NULL pointer (or not), with the content of the error variable -/
  | made (ok : Bool) (e : EArg)
  | array (n : Nat) (xs : List α)
  | launched (rv : Int) (w : WOut α) (P : Option (Photon α))
  | got (te : TE α)
  /-- the data `polycap_transmission_efficiencies_write_hdf5` takes from the result and, through its `source` member, from the source -/
  | wrote (te : TE α) (S : Src α) (D : Descr α) (open_area : α)
  | failed (e : EArg)
  | none

/-- state of the program: memory, the client's variables, the number of simulations run so far -/
structure St (α : Type) where
  heap : Heap (Block α)
  vars : List (Var α)
  sims : Nat

inductive Res (σ α : Type) where
  | next (s : σ) (o : Obs α)
  | stale
  | inner

/-! ## Reading objects the way the library does -/

/-- `profile->nmax`, and the arrays `z`, `cap`, `ext` up to index `nmax` -/
def fetchProfile (p : Ptr) : CM (Block α) (Nat × List α × List α × List α) := do
  let (n, z, c, e) ← loadProfile p
  let zs ← loadArr z (n + 1)
  let cs ← loadArr c (n + 1)
  let es ← loadArr e (n + 1)
  pure (n, zs, cs, es)

/-- `photon->description->...` (polycap-photon.c:40-95, 462-954, polycap-capil.c) and `source->description->...` (polycap-source.c:23-144,
polycap-transmission-efficiencies.c:697-763): every member of a description, and its `open_area` -/
def fetchDescr (d : Ptr) : CM (Block α) (Descr α × α) := do
  match ← load d with
  | .descr s n o ne iz wi rho p => do
    let is ← loadInts iz ne
    let ws ← loadArr wi ne
    let (m, zs, cs, es) ← fetchProfile p
    pure (⟨s, n, is, ws, rho, listProfile m zs cs es⟩, o)
  | _ => ub

/-- a source: its parameters, its description and the address of its description -/
def fetchSource (s : Ptr) : CM (Block α) (Src α × Descr α × α × Ptr) := do
  match ← load s with
  | .source d _ ds x y sx sy hx hy pol ne en => do
    let es ← loadArr en ne
    let (D, o) ← fetchDescr d
    pure (⟨ds, x, y, sx, sy, hx, hy, pol, es⟩, D, o, d)
  | _ => ub

/-- `description->open_area = ...`, polycap-source.c:1066 -/
def setOpenArea (d : Ptr) (oa : α) : CM (Block α) Unit := do
  match ← load d with
  | .descr s n _ ne iz wi rho p => store d (.descr s n oa ne iz wi rho p)
  | _ => ub

/-! ## One call -/

/-- run a piece of library code; undefined behaviour in it is a stale access -/
def St.run {A : Type} (s : St α) (x : CM (Block α) A) (k : A → St α → Res (St α) α) : Res (St α) α :=
  match x.run s.heap with
  | some (a, h) => k a { s with heap := h }
  | none => .stale

def St.push (s : St α) (v : Var α) : St α := { s with vars := s.vars ++ [v] }

/-- the pointer a creating call returned becomes the next variable -/
def St.made (s : St α) (mk : Ptr → Var α) (r : Ptr × EArg) : Res (St α) α :=
  match r.1 with
  | none => .next (s.push .null) (.made false r.2)
  | some a => .next (s.push (mk (some a))) (.made true r.2)

/-- the caller's `double` array exists for the duration of the call -/
def withArr {A : Type} (xs : List α) (f : Ptr → CM (Block α) A) : CM (Block α) A := do
  let p ← malloc (.doubles xs)
  let r ← f p
  CM.free p
  pure r

def withInts {A : Type} (xs : List Int) (f : Ptr → CM (Block α) A) : CM (Block α) A := do
  let p ← malloc (.ints xs)
  let r ← f p
  CM.free p
  pure r

/-- `polycap_profile_get_*` and `polycap_free` of the array it returns -/
def readArray (fld : ProfField) (p : Ptr) : CM (Block α) (Option (Nat × List α)) := do
  let r ← profileGet fld p false
  if r.1 then do
    let xs ← loadArr r.2.2 (r.2.1 + 1)
    CM.free r.2.2
    pure (some (r.2.1, xs))
  else pure none

/-- obs of an array read -/
def arrObs : Option (Nat × List α) → Obs α
  | some (n, xs) => .array n xs
  | none => .none

/-- One API call (error variable empty before each call).  A handle of the wrong kind is a type error in C and counts as `stale`.
`sim k a`: the result of the `k`-th simulation of the history, if it finishes regularly; `fit`, `lib`: gsl fit and xraylib. -/
def step (fit : Fit α) (lib : Xray α) (sim : Nat → SimArgs α → Option (TE α)) (op : Op α) (s : St α) : Res (St α) α :=
  match op with
  | .newProfile a => s.run (profileNew fit a (some none)) fun r s => s.made .prof r
  | .newProfileFromArrays nid ext cap z =>
    s.run (withArr ext fun pe => withArr cap fun pc => withArr z fun pz =>
      profileNewFromArrays nid pe pc pz (some none)) fun r s => s.made .prof r
  | .getArray i fld =>
    match s.vars[i]? with
    | some .null => .next s .none
    | some (.prof p) => s.run (readArray fld p) fun r s => .next s (arrObs r)
    | _ => .stale
  | .newDescription i sig n_cap comp rho =>
    match s.vars[i]? with
    | some (.prof p) =>
      s.run (withInts (comp.map (·.1)) fun iz => withArr (comp.map (·.2)) fun wi =>
        descriptionNew ⟨p, sig, n_cap, comp.length, iz, wi, rho⟩ (some none)) fun r s => s.made .descr r
    | _ => .stale
  | .getDescrArray i fld =>
    match s.vars[i]? with
    | some (.descr d) => s.run (do readArray fld (← descriptionGetProfile d)) fun r s => .next s (arrObs r)
    | _ => .stale
  | .newSource i a =>
    match s.vars[i]? with
    | some .null => .next (s.push .null) (.made false (some (some .invalidArgument)))
    | some (.descr d) =>
      s.run (withArr a.energies fun en => sourceNew ⟨d, a.d_source, a.src_x, a.src_y, a.src_sigx, a.src_sigy, a.src_shiftx, a.src_shifty,
        a.hor_pol, a.energies.length, en⟩ (some none)) fun r s => s.made .src r
    | _ => .stale
  | .newPhoton i c d E =>
    match s.vars[i]? with
    | some .null => .next (s.push .null) (.made false (some (some .invalidArgument)))
    | some (.descr p) =>
      match photonNew c d E with
      | none => .next (s.push .null) (.made false (some (some .invalidArgument)))
      | some P => .next (s.push (.photon p P)) (.made true (some none))
    | _ => .stale
  | .getPhoton i u fuel n =>
    match s.vars[i]? with
    | some .null => .next (s.push .null) (.made false (some (some .invalidArgument)))
    | some (.src q) => s.run (fetchSource q) fun r s =>
      match getPhoton r.1 r.2.1 u fuel n with
      | .ok x => .next (s.push (.photon r.2.2.2 x.1.photon)) (.made true (some none))
      | _ => .inner
    | _ => .stale
  | .launch i es leak fuel k =>
    match s.vars[i]? with
    | some .null => .next s (.launched (-1) .untouched Option.none)
    | some (.photon d P) =>
      if es.isEmpty || es.any energyBad then .next s (.launched (-1) .untouched (some P))
      else s.run (fetchDescr d) fun r s =>
        match launch lib (some r.1) leak fuel k (some P) (some es) true with
        | .ok (rv, w, some P') => .next { s with vars := s.vars.set i (.photon d P') } (.launched rv w (some P'))
        | _ => .inner
    | _ => .stale
  | .simulate i mt np leak =>
    match s.vars[i]? with
    | some .null => .next (s.push .null) (.made false (some (some .invalidArgument)))
    | some (.src q) => s.run (fetchSource q) fun r s =>
      let a : SimArgs α := ⟨some (r.1, some r.2.1), false, mt, np, leak, false⟩
      if simRejects a then .next (s.push .null) (.made false (some (some .invalidArgument)))
      else match sim s.sims a with
        | none => .inner
        | some te => s.run (setOpenArea r.2.2.2 te.openArea) fun _ s =>
          .next ({ s with sims := s.sims + 1 }.push (.result q te)) (.made true (some none))
    | _ => .stale
  | .readResult i =>
    match s.vars[i]? with
    | some .null => .next s (.failed (some (some .invalidArgument)))
    | some (.result _ te) => .next s (.got te)
    | _ => .stale
  | .write i =>
    match s.vars[i]? with
    | some .null => .next s (.failed (some (some .invalidArgument)))
    | some (.result q te) => s.run (fetchSource q) fun r s => .next s (.wrote te r.1 r.2.1 r.2.2.1)
    | _ => .stale
  | .free i =>
    match s.vars[i]? with
    | some .null => .next s .none
    | some (.prof p) => s.run (profileFree p) fun _ s => .next s .none
    | some (.descr d) => s.run (descriptionFree d) fun _ s => .next s .none
    | some (.src q) => s.run (sourceFree q) fun _ s => .next s .none
    | some (.photon _ _) => .next { s with vars := s.vars.set i .freed } .none
    | some (.result _ _) => .next { s with vars := s.vars.set i .freed } .none
    | _ => .stale

/-- A whole history: the observations made, and how it ended. -/
inductive End (σ : Type) where
  | fine (s : σ)
  | stale
  | inner

/-- run a program on any machine -/
def runAll {σ : Type} (f : Op α → σ → Res σ α) : List (Op α) → σ → List (Obs α) × End σ
  | [], s => ([], .fine s)
  | op :: ops, s =>
    match f op s with
    | .next s' o => let r := runAll f ops s'; (o :: r.1, r.2)
    | .stale => ([], .stale)
    | .inner => ([], .inner)

/-- nothing allocated yet; every allocation will succeed -/
def start : St α := ⟨⟨fun _ => none, 0, fun _ => true⟩, [], 0⟩

end Polycap.Sess
