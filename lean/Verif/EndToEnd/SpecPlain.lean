import Verif.EndToEnd.Spec

/-! # Specification of a single request between the client and the server of the library -/

namespace FreeCoAP.EndToEnd

open FreeCoAP.Msg
open FreeCoAP.Server (Env Event Addr Srv Carries Asks calls step Kept)

/-- Two messages say the same: code, options and payload are equal. -/
def Says (m r : Msg) : Prop := m.codeClass = r.codeClass ∧ m.codeDetail = r.codeDetail ∧ m.ops = r.ops ∧ m.payload = r.payload

instance (m r : Msg) : Decidable (Says m r) := by unfold Says; infer_instance

/-- The application does not use blockwise transfers with the client at `a`. -/
def Direct (a : Addr) (env : Env) : Prop :=
  ∀ (t : Server.Trans) (m : Msg), t.addr = a → ∃ resp err, env.handle t m = .reply resp err

/-- When the application was called with `m` from the client at `a`, its answer was `resp`. -/
def Replied (a : Addr) (evs : List (Env × Event)) (tr : List (List Server.Obs)) (m resp : Msg) : Prop :=
  ∃ p ∈ evs.zip tr, (a, m) ∈ calls p.2 ∧ ∃ t : Server.Trans, t.addr = a ∧ p.1.1.handle t m = .reply resp none

/-- The calls of the application for the client at `a`. -/
def callsOf (a : Addr) (tr : List (List Server.Obs)) : List Msg :=
  ((calls tr.flatten).filter (fun c => c.1 = a)).map (·.2)

/-- Whenever the application is called for the client at `a`, the response is handed over to
the network and from then on the server does not forget the client. -/
def Remembers (sx : Bool) (a : Addr) : Srv → List (Env × Event) → Prop
  | _, [] => True
  | s, (env, ev) :: rest => ∀ s1 o e, step sx s env ev = .ok (s1, o, e) →
    ((∃ m, (a, m) ∈ calls o) → e = none ∧ Kept sx a s1 rest) ∧ Remembers sx a s1 rest

end FreeCoAP.EndToEnd
