import Verif.Sample.ModelReg
import Verif.Sample.Spec
import Verif.EndToEnd.SpecPlain

/-! # Specification of the registration of a client with the sample server -/

namespace FreeCoAP.Sample

open FreeCoAP.Msg
open FreeCoAP.Server (Env Event Addr calls)

/-- The application of the CoAP server is `reg_server`: at each event its callback works on the registrar as it was left by the calls before. `r` is
the registrar before these events and the last argument is the registrar after them. -/
def Serves (L : Nat) (ntop : Addr → Option Bytes) : Out Reg → List (Env × Event) → List (List Server.Obs) → Out Reg → Prop
  | r, [], _, r' => r' = r
  | r, (env, _) :: evs, o :: tr, r' => ∃ (alloc : List Nat → Option Nat) (mem : Nat → Bool),
    (∀ live p, alloc live = some p → p ∉ live) ∧
    (∀ (t : Server.Trans) (m : Msg) (x : Server.HAct × Reg),
      (r >>= fun r => handle L ntop alloc mem r t.addr m) = .ok x → env.handle t m = x.1) ∧
    (env.rx = fun _ body e _ resp => ⟨none, resp, body, e⟩) ∧
    Serves L ntop ((calls o).foldl (fun r c => r >>= fun r => handle L ntop alloc mem r c.1 c.2 >>= fun x => .ok x.2) r) evs tr r'
  | _, _ :: _, [], _ => False

/-- The message is a registration of `id`: a POST with `id` as the text of its payload. -/
def Registers (id : Bytes) (m : Msg) : Prop := m.codeDetail = 2 ∧ m.payload.takeWhile (· ≠ 0) = id

/-- The registrar has the address `addr` for `id`. -/
def Knows (L : Nat) (r : Out Reg) (id addr : Bytes) : Prop := ∃ reg, r = .ok reg ∧ step L reg (.find id) = .ok (.found (some (id, addr)), reg)

end FreeCoAP.Sample
