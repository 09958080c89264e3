import Verif.Sample.ModelTime
import Verif.EndToEnd.SpecPlain

/-! # Specification of asking the sample server for the time -/

namespace FreeCoAP.Sample

open FreeCoAP.Msg
open FreeCoAP.Server (Env Event)

/-- The application of the CoAP server is `time_server`, and at each event `ctime_r` gives the text of the list. The text fits into the
buffer of the sample (that of the C standard has 25 characters), or is empty if `ctime_r` fails. -/
def Clock : List (Env × Event) → List Bytes → Prop
  | [], [] => True
  | (env, _) :: evs, text :: clock =>
    text.length ≤ 31 ∧
    (∃ mem : Nat → Bool, ∀ (t : Server.Trans) (m : Msg) (x : Server.HAct), timeHandle mem text m = .ok x → env.handle t m = x) ∧
    (env.rx = fun _ body e _ resp => ⟨none, resp, body, e⟩) ∧ Clock evs clock
  | _, _ => False

/-- The line of text at the start of `s`, without the line feed. -/
def IsLine (s line : Bytes) : Prop := (0 : Byte) ∉ line ∧ (10 : Byte) ∉ line ∧ (s = line ∨ (∃ r, s = line ++ 10 :: r) ∨ ∃ r, s = line ++ 0 :: r)

end FreeCoAP.Sample
