import Verif.Proxy.ModelReason

/-! # Specification of the reasons that a connection logs -/

namespace FreeCoAP.Proxy.Reason

/-- What is said of an error of a socket. -/
def describes : Tls.Io.Code → String
  | .intr => "received interrupt"
  | .timeout => "timeout"
  | .readError => "unable to read from socket"
  | .writeError => "unable to write to socket"
  | .handshakeError => "unable to complete TLS handshake"
  | .refused => "TLS rehandshake refused"
  | .warningAlert => "TLS warning alert received"

/-- What is said of an error of the HTTP parser. -/
def describesHttp : Err → Option String
  | .EAGAIN => some "incomplete"
  | .ENOMEM => some "no memory"
  | .EBADMSG => some "format error"
  | _ => none

/-- The message gives the outcome; for a failure it gives its reason. `cs` are the codes of the reads that can have failed. -/
def Names (cs : List Tls.Io.Code) : Recv → Line → Prop
  | .msg _, l => l = .received
  | .timedOut, l => l = .timedOut
  | .closed, l => l = .closed
  | .waiting, l => l = .nothing
  | .failed e, .select e' => e' = e
  | .failed e, .read t => e = .EIO ∧ ∃ c ∈ cs, t = some (describes c)
  | .failed e, .tooLong => e = .EINVAL
  | .failed e, .noMemory => e = .ENOMEM
  | .failed e, .parse t => describesHttp e = some t
  | .failed _, _ => False

end FreeCoAP.Proxy.Reason
