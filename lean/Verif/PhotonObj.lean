import Verif.Photon
import Verif.Description

/-!
# The photon object as the caller sees it: `polycap_photon_new` and the getters (`/repo/src/polycap-photon.c:98-136, 957-1012`)
-/
namespace Polycap.Obj
open CNum

variable {α : Type} [CNum α]

/-- `polycap_photon_new`, polycap-photon.c:98-136, with its error slot; `hasD`: the description is not NULL; `mem`: the calloc succeeds.
Simplified: the value of the object, not its block (that is `Memory.lean` and `Session.lean`). -/
def photonNewE (hasD mem : Bool) (c d E : V3 α) (e : EArg) : Option (Photon α) × EArg :=
  if !hasD then (none, e.set .invalidArgument)
  else if c.z <. lit 0 then (none, e.set .invalidArgument)
  else if d.z <. lit 0 then (none, e.set .invalidArgument)
  else if !mem then (none, e.set .memory)
  else (photonNew c d E, e)

/-- what the getters read, `none` for a NULL photon (which they dereference) -/
def deref {β : Type} (P : Option (Photon α)) (f : Photon α → β) : Out β := match P with
  | none => .ub
  | some P => .ok (f P)

/-- `polycap_photon_get_dtravel`, polycap-photon.c:959-962 -/
def getDtravel (P : Option (Photon α)) : Out α := deref P (·.d_travel)
/-- `polycap_photon_get_irefl`, polycap-photon.c:966-969 -/
def getIrefl (P : Option (Photon α)) : Out Int := deref P (·.i_refl)
/-- `polycap_photon_get_start_coords`, polycap-photon.c:973-976 -/
def getStartC (P : Option (Photon α)) : Out (V3 α) := deref P (·.startC)
/-- `polycap_photon_get_start_direction`, polycap-photon.c:980-983 -/
def getStartD (P : Option (Photon α)) : Out (V3 α) := deref P (·.startD)
/-- `polycap_photon_get_start_electric_vector`, polycap-photon.c:987-990 -/
def getStartE (P : Option (Photon α)) : Out (V3 α) := deref P (·.startE)
/-- `polycap_photon_get_exit_coords`, polycap-photon.c:994-997 -/
def getExitC (P : Option (Photon α)) : Out (V3 α) := deref P (·.exitC)
/-- `polycap_photon_get_exit_direction`, polycap-photon.c:1001-1004 -/
def getExitD (P : Option (Photon α)) : Out (V3 α) := deref P (·.exitD)
/-- `polycap_photon_get_exit_electric_vector`, polycap-photon.c:1008-1011 -/
def getExitE (P : Option (Photon α)) : Out (V3 α) := deref P (·.exitE)

end Polycap.Obj
