import Verif.Client.ModelDtls

/-!
# Model of blockwise transfers of the client over DTLS

The loops of `Client.Model` around the exchange of `Client.ModelDtls`. The socket and the session go on from one exchange to the next.
-/

namespace FreeCoAP.Client.Dtls

open FreeCoAP.Msg

/-- One round: the environment of the round (its `inputs` are not used) and what the calls of `select` and of GnuTLS find. -/
structure Round where
  b : BEnv
  is : List Input

/-- Add what was seen in a round. -/
def consRound (o : List Obs) (x : Out BRes × World) : Out BRes × World := (BRes.cons o x.1, x.2)

/-- The loop of `coap_client_exchange_blockwise1`, coap_client.c:1686-1798. -/
def blockwise1 (sx px : Bool) (req : Msg) (size2 : Nat) (body : Bytes) (bodyLen : Nat) :
    (size1 szx start : Nat) → (resp : Msg) → List Round → World → Out BRes × World
  | _, _, _, resp, [], u => (.ok ⟨[], none, resp, body⟩, u)
  | size1, szx, start, resp, r :: rs, u =>
    match message1 r.b req size1 size2 szx start body bodyLen with
    | .ub => (.ub, u)
    | .err e => (.err e, u)
    | .ok (.error e) => (endRound [] (.error e) resp body, u)
    | .ok (.ok (msg, payloadLen)) =>
      match exchange sx px r.b.x msg r.is u with
      | (.ub, u) => (.ub, u)
      | (.err e, u) => (.err e, u)
      | (.ok (o, none), u) => (.ok ⟨[o], none, resp, body⟩, u)
      | (.ok (o, some (.error e)), u) => (endRound o (.error e) resp body, u)
      | (.ok (o, some (.ok resp)), u) =>
        if resp.codeClass ≠ 2 then (endRound o (.ok 0) resp body, u)
        else if resp.codeDetail ≠ 31 ∧ resp.codeDetail ≠ 1 ∧ resp.codeDetail ≠ 4 then (endRound o (.ok 0) resp body, u)
        else
          match parseBlockOp BLOCK1 resp.ops with
          | .ub => (.ub, u)
          | .err _ => (endRound o (.error .EBADMSG) resp body, u)
          | .ok none => (endRound o (.error .EBADMSG) resp body, u)
          | .ok (some blk) =>
            let size1 := if blk.size < size1 then blk.size else size1
            if blk.num * size1 ≠ start then (endRound o (.error .EBADMSG) resp body, u)
            else
              match calcBlockSzx size1 with
              | .ub => (.ub, u)
              | .err _ => (endRound o (.error .EBADMSG) resp body, u)
              | .ok szx =>
                let start := start + payloadLen
                if start ≥ bodyLen then (endRound o (.ok start) resp body, u)
                else consRound o (blockwise1 sx px req size2 body bodyLen size1 szx start Msg.create rs u)

/-- `coap_client_exchange_blockwise1`, coap_client.c:1652-1799. -/
def upload (sx px : Bool) (req resp : Msg) (size1 size2 : Nat) (body : Bytes) (bodyLen : Nat) (rs : List Round) (u : World) : Out BRes × World :=
  if size1 = 0 ∨ size2 = 0 then (.ok ⟨[], some (.error .EINVAL), resp, body⟩, u)
  else
    match calcBlockSzx size1 with
    | .ub => (.ub, u)
    | .err e => (.ok ⟨[], some (.error e), resp, body⟩, u)
    | .ok szx =>
      match calcBlockSzx size2 with
      | .ub => (.ub, u)
      | .err e => (.ok ⟨[], some (.error e), resp, body⟩, u)
      | .ok _ => blockwise1 sx px req size2 body bodyLen size1 szx 0 resp rs u

/-- The loop of `coap_client_exchange_blockwise2`, coap_client.c:1845-1962, from a round in which the response is not there yet. -/
def blockwise2 (sx px : Bool) (req : Msg) (bodyLen : Nat) :
    (size2 szx start : Nat) → (resp : Msg) → (body : Bytes) → List Round → World → Out BRes × World
  | _, _, _, resp, body, [], u => (.ok ⟨[], none, resp, body⟩, u)
  | size2, szx, start, resp, body, r :: rs, u =>
    match message2 r.b req size2 szx start with
    | .ub => (.ub, u)
    | .err e => (.err e, u)
    | .ok (.error e) => (endRound [] (.error e) resp body, u)
    | .ok (.ok msg) =>
      match exchange sx px r.b.x msg r.is u with
      | (.ub, u) => (.ub, u)
      | (.err e, u) => (.err e, u)
      | (.ok (o, none), u) => (.ok ⟨[o], none, resp, body⟩, u)
      | (.ok (o, some (.error e)), u) => (endRound o (.error e) resp body, u)
      | (.ok (o, some (.ok resp)), u) =>
        match take2 req.codeDetail size2 start resp body bodyLen with
        | .ub => (.ub, u)
        | .err e => (.err e, u)
        | .ok (.ret r body) => (endRound o r resp body, u)
        | .ok (.next size2 szx start body) => consRound o (blockwise2 sx px req bodyLen size2 szx start Msg.create body rs u)

/-- `coap_client_exchange_blockwise2`, coap_client.c:1816-1964. -/
def download (sx px : Bool) (req resp : Msg) (size2 : Nat) (body : Bytes) (bodyLen : Nat) (haveResp : Bool) (rs : List Round) (u : World) :
    Out BRes × World :=
  if size2 = 0 then (.ok ⟨[], some (.error .EINVAL), resp, body⟩, u)
  else
    match calcBlockSzx size2 with
    | .ub => (.ub, u)
    | .err e => (.ok ⟨[], some (.error e), resp, body⟩, u)
    | .ok szx =>
      if haveResp = false then blockwise2 sx px req bodyLen size2 szx 0 resp body rs u
      else
        match take2 req.codeDetail size2 0 resp body bodyLen with
        | .ub => (.ub, u)
        | .err e => (.err e, u)
        | .ok (.ret r body) => (.ok ⟨[], some r, resp, body⟩, u)
        | .ok (.next size2 szx start body) => blockwise2 sx px req bodyLen size2 szx start Msg.create body rs u

/-- `coap_client_exchange_blockwise`, coap_client.c:1966-2028. `rs1` are the rounds of the upload and `rs2` those of the download. -/
def exchangeBlockwise (sx px : Bool) (req resp : Msg) (size1 size2 : Nat) (body : Bytes) (bodyLen : Nat) (haveResp : Bool)
    (rs1 rs2 : List Round) (u : World) : Out BRes × World :=
  if req.codeDetail = 1 then download sx px req resp size2 body bodyLen haveResp rs2 u
  else if req.codeDetail = 3 ∨ req.codeDetail = 2 then
    match upload sx px req resp size1 size2 body bodyLen rs1 u with
    | (.ub, u) => (.ub, u)
    | (.err e, u) => (.err e, u)
    | (.ok r, u) =>
      match r.ret with
      | none => (.ok r, u)
      | some (.error _) => (.ok r, u)
      | some (.ok n) =>
        if n = 0 then (.ok r, u)
        else if r.resp.payload = [] then (.ok { r with ret := some (.ok 0) }, u)
        else
          match download sx px req r.resp size2 r.body bodyLen true rs2 u with
          | (.ok r2, u) => (.ok { r2 with obs := r.obs ++ r2.obs }, u)
          | (.err e, u) => (.err e, u)
          | (.ub, u) => (.ub, u)
  else (.ok ⟨[], some (.error .EINVAL), resp, body⟩, u)

end FreeCoAP.Client.Dtls
