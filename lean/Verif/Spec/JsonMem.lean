import Verif.Model.JsonMem
import Verif.Spec.Own

/-!
The status of the program, without its representation in memory.
-/

namespace Pound.Spec
open Pound

variable {D : Type}

/-- A session as the listing shows it -/
def sessShown (L : DblLib D) (s : JSess) : JVal D := .obj 3 [(b!"backend", .int (L.ofInt s.backend)), (b!"expire", .str s.expire), (b!"key", .str s.key)]

/-- The sessions of a service: null if it keeps none -/
def sessionsShown (L : DblLib D) : Option (List JSess) → JVal D
  | none => .null
  | some l => .arr (l.map (sessShown L))

def svcShown (L : DblLib D) (s : JSvc D) : MSvc D := ⟨s.name, s.disabled, s.sessType, sessionsShown L s.sess, s.balancers⟩

def lstShown (L : DblLib D) (l : JLst D) : MLst D := ⟨l.name, l.address, l.https, l.noHttps11, l.disabled, l.services.map (svcShown L)⟩

def stShown (L : DblLib D) (st : JState D) : MState D :=
  ⟨st.stats, st.version, st.pid, st.timestamp, st.queueLen, st.workers, st.listeners.map (lstShown L), st.services.map (svcShown L)⟩

end Pound.Spec
