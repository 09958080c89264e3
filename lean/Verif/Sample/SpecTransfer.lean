import Verif.Sample.ModelTransfer
import Verif.EndToEnd.Spec

/-! # Specification of the transfer of a file to the sample server -/

namespace FreeCoAP.Sample

open FreeCoAP.Msg
open FreeCoAP.Server (Env Event bodies)

/-- The application of the CoAP server is `transfer_server`; `ios` tells for each event what the system does with its file. -/
structure Runs (evs : List (Env × Event)) (ios : List WriteIO) : Prop where
  length : ios.length = evs.length
  handle : ∀ p ∈ evs.zip ios, ∀ (t : Server.Trans) (m : Msg) (x : Server.HAct), handleTransfer m = .ok x → p.1.1.handle t m = x
  rx : ∀ p ∈ evs.zip ios, p.1.1.rx = fun _ body e _ resp => handleRx p.2 body e resp

/-- The bodies the server writes to its file, in order, with what the system does. -/
def writes (ios : List WriteIO) (tr : List (List Server.Obs)) : List (WriteIO × Bytes) :=
  (ios.zip tr).flatMap fun p => (bodies p.2).map fun y => (p.1, y.2.2)

/-- In this period the server writes its file, and the contents are then `file`, whatever they were before. -/
def Saved (ios : List WriteIO) (tr : List (List Server.Obs)) (file : Bytes) : Prop := ∃ w ∈ writes ios tr, ∀ disk, save disk w = some file

/-- PUT /client/transfer. -/
def PUT : Msg := { Msg.create with codeDetail := 3, ops := [⟨URI_PATH, str "client"⟩, ⟨URI_PATH, str "transfer"⟩] }

end FreeCoAP.Sample
