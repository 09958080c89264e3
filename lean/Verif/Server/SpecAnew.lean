import Verif.Server.Spec

/-! # Specification of requests that begin anew -/

namespace FreeCoAP.Server

open FreeCoAP.Msg

/-- The request is complete in itself: it has no Block options. -/
def Alone (m : Msg) : Prop := ∀ o ∈ m.ops, o.num ≠ BLOCK1 ∧ o.num ≠ BLOCK2

end FreeCoAP.Server
