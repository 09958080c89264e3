import Verif.Res.Prog

/-!
# What it means that a session is with a trusted peer

In terms of the calls that were made and their results. The bits of the status of a certificate are those of `gnutls_certificate_status_t`.
-/

namespace FreeCoAP.Res

/-- A status that speaks against the certificate: it is invalid (2), revoked (32), its signer is unknown (64) or is not an authority (128). -/
def Refused (status : Nat) : Prop := status.testBit 1 = true ∨ status.testBit 5 = true ∨ status.testBit 6 = true ∨ status.testBit 7 = true

/-- The certificate of the peer of a session has been checked in these calls: GnuTLS verified it and found nothing against it, it is an X.509
certificate, its period of validity contains the present time, and, if a name is given, it is the owner's. -/
def Checked (session : Nat) (name : Option Nat) (c : List Ev) : Prop :=
  ∃ (status crt : Nat) (now until_ since : Int) (x1 x2 x3 x4 x5 x6 x7 x8 : Nat) (peers named freed : Int),
    ¬ Refused status ∧ peers ≠ 0 ∧ now ≤ until_ ∧ since ≤ now ∧ named ≠ 0 ∧
    c = [⟨.verifyPeers, [session], 0, status⟩, ⟨.certType, [session], 1, x1⟩, ⟨.crtInit, [], 0, crt⟩, ⟨.getPeers, [session], peers, x2⟩,
      ⟨.crtImport, [crt, session], 0, x3⟩, ⟨.time, [], now, x4⟩, ⟨.expiration, [crt], until_, x5⟩, ⟨.activation, [crt], since, x6⟩] ++
      (match name with | none => [] | some n => [⟨.checkName, [crt, n], named, x7⟩]) ++ [⟨.crtDeinit, [crt], freed, x8⟩]

/-- In these calls a session was created, a handshake on the descriptor `sd` completed on it, and then the certificate of the peer was checked; the
session has not been destroyed since. -/
def Trusted (session sd : Nat) (name : Option Nat) (l : List Ev) : Prop :=
  ∃ (l1 l2 c l3 : List Ev) (e : Nat),
    l = l1 ++ ⟨.init, [], 0, session⟩ :: (l2 ++ ⟨.handshake, [session, sd], 0, e⟩ :: (c ++ l3)) ∧
    (∀ v ∈ l2, v.op ≠ .deinit) ∧ Checked session name c ∧ ∀ v ∈ l3, ¬ (v.op = .deinit ∧ v.args = [session])

end FreeCoAP.Res
