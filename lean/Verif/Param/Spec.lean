import Verif.Param.Model
import Verif.Config.Spec

/-! # Specification of the parameters of the proxy -/

namespace FreeCoAP.Param

open FreeCoAP.Config (Setting lookup Reads)

/-- The names of the log levels, from the one with the fewest messages on. -/
def levels : List Bytes := [str "error", str "warning", str "notice", str "info", str "debug"]

/-- The value of a name in a section: the last one set, and a default if there is none. -/
def value (as : List Setting) (sec name dflt : String) : Bytes := (lookup as (str sec) (str name)).getD (str dflt)

/-- The parameters are those of the settings. -/
structure Follows (as : List Setting) (p : Param) : Prop where
  port : p.port = some (value as "" "port" "4430")
  level : ∃ n : Nat, p.level = n ∧ levels[n]? = some (value as "" "log_level" "info")
  serverKey : p.serverKey = some (value as "http_server" "key_file" "http_server_privkey.pem")
  serverCert : p.serverCert = some (value as "http_server" "cert_file" "http_server_cert.pem")
  serverTrust : p.serverTrust = some (value as "http_server" "trust_file" "http_server_trust.pem")
  clientKey : p.clientKey = some (value as "coap_client" "key_file" "coap_client_privkey.pem")
  clientCert : p.clientCert = some (value as "coap_client" "cert_file" "coap_client_cert.pem")
  clientTrust : p.clientTrust = some (value as "coap_client" "trust_file" "coap_client_trust.pem")

/-- The file can be read and its contents are `text`. -/
def Contains (f : File) (text : Bytes) : Prop := f.opens = true ∧ f.len = some text.length ∧ f.data.take text.length = text

/-- The level in force after uses of the log: the last one set, where a value that is not a level counts as the lowest. -/
def levelAfter (ops : List LogOp) : Int :=
  match (ops.filterMap (fun | .set l => some l | .log _ _ => none)).getLast? with
  | none => 0
  | some l => if 0 ≤ l ∧ l ≤ 4 then l else 0

end FreeCoAP.Param
