import Verif.Client.Spec

/-!
# When the calls of the client end
-/

namespace FreeCoAP.Client.Ends

/-- How often the timer expires during an exchange. -/
def expiries (is : List Input) : Nat := is.countP (fun i => decide (i.ev = .timer))

/-- In each of the exchanges the timer expires five times, if the exchange takes that long. -/
def Timed (bs : List BEnv) : Prop := ∀ b ∈ bs, 5 ≤ expiries b.x.inputs

end FreeCoAP.Client.Ends
