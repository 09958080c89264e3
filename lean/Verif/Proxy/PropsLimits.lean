import Verif.Proxy.Props3
import Verif.Sample.LemmasReg

/-!
# C144: the limits on sizes

The numbers are written out here, so that they do not depend on the constants of the model.
-/

namespace FreeCoAP.Proxy

open FreeCoAP.Http (HMsg)
open FreeCoAP.Msg (Msg)
open FreeCoAP.Cross (Reply coded)

/-- The request is forwarded to a CoAP server. -/
def Forwarded (w : World) (peer : Peer) (h : HMsg) : Prop := (process w peer h).calls ≠ []

/-- The HTTP client gets an answer with the status 502. -/
def BadGateway (r : Out HMsg) : Prop := ∃ h, r = .ok h ∧ h.start1 = str "502" ∧ h.body = none

theorem exchange_calls (w : World) (req : Msg) (body : Bytes) (n : Nat) :
    (exchange w req body n).calls ≠ [] ↔ req.codeDetail = 1 ∨ req.codeDetail = 2 ∨ req.codeDetail = 3 := by
  have hg : ∀ b k, (exchangeGet w req b k).calls ≠ [] := by
    intro b k
    unfold exchangeGet inBlocks
    repeat' split
    all_goals simp
  have hs : ∀ b k, (exchangeSend w req b k).calls ≠ [] := by
    intro b k
    unfold exchangeSend inBlocks
    repeat' split
    all_goals simp
  unfold exchange
  by_cases h1 : req.codeDetail = 1
  · rw [if_pos h1]; exact iff_of_true (hg _ _) (Or.inl h1)
  · rw [if_neg h1]
    by_cases h3 : req.codeDetail = 3
    · rw [if_pos h3]; exact iff_of_true (hs _ _) (Or.inr (Or.inr h3))
    · rw [if_neg h3]
      by_cases h2 : req.codeDetail = 2
      · rw [if_pos h2]; exact iff_of_true (hs _ _) (Or.inr (Or.inl h2))
      · rw [if_neg h2]
        exact iff_of_false (fun h => h rfl) (by omega)

/-- The conversion of a request up to the body. -/
def head (env : Cross.Env) (h : HMsg) : Reply Msg :=
  (Cross.method Msg.create h).bind fun m => (coded 400 (Cross.uriToCoap env m h.start1)).bind fun m => Cross.headersToCoap env m h.headers

theorem reqToCoap_head (env : Cross.Env) (n : Nat) (h : HMsg) :
    Cross.reqToCoap env n h = (head env h).bind fun m => Cross.bodyToCoap env n m (h.body.getD []) := by
  unfold Cross.reqToCoap head
  cases Cross.method Msg.create h with
  | ok m =>
    show (coded 400 _).bind _ = ((coded 400 _).bind _).bind _
    cases coded 400 (Cross.uriToCoap env m h.start1) <;> rfl
  | fail e c => rfl
  | ub => rfl

theorem errorResp_ample {w : World} (he : w.env'.Ample) (m : HMsg) (code : Nat) :
    errorResp w m code = .ok { m with start0 := str "HTTP/1.1", start1 := Cross.digits 9 code, start2 := Cross.respText code } := by
  unfold errorResp Cross.setStart Cross.strdup
  simp only [he.2.1, if_true]
  rfl

/-- What the proxy does with a request that could be converted depends on the body only through the exchange. -/
theorem process_calls {w : World} {peer : Peer} {h : HMsg} {req : Msg} {blocks : Option Bytes} (hr : Cross.reqToCoap w.env BODY_LEN h = .ok (req, blocks)) :
    Forwarded w peer h ↔ (∃ u p, Uri.parse w.env.sx w.uri h.start1 = .ok u ∧ (choose w peer u).2 = .ok p) ∧
      (req.codeDetail = 1 ∨ req.codeDetail = 2 ∨ req.codeDetail = 3) := by
  unfold Forwarded process
  rw [hr]
  dsimp only
  cases hu : Uri.parse w.env.sx w.uri h.start1 with
  | err e => exact iff_of_false (fun h => h rfl) (by rintro ⟨⟨u, p, h, -⟩, -⟩; cases h)
  | ub => exact iff_of_false (fun h => h rfl) (by rintro ⟨⟨u, p, h, -⟩, -⟩; cases h)
  | ok u =>
    dsimp only
    cases hc : (choose w peer u).2 with
    | err e => exact iff_of_false (fun h => h rfl) (by rintro ⟨⟨v, p, h, h2⟩, -⟩; cases h; rw [hc] at h2; cases h2)
    | ub => exact iff_of_false (fun h => h rfl) (by rintro ⟨⟨v, p, h, h2⟩, -⟩; cases h; rw [hc] at h2; cases h2)
    | ok p =>
      dsimp only
      rw [← exchange_calls w req (bodyBuf blocks).1 (bodyBuf blocks).2]
      constructor
      · intro h
        exact ⟨⟨u, p, rfl, hc⟩, fun hn => h (by rw [hn]; rfl)⟩
      · rintro ⟨-, h⟩ hn
        exact h (List.map_eq_nil_iff.1 hn)

/-- A request that is forwarded without a body is forwarded with every body of up to 8192 bytes. With a longer one it is not, and the HTTP client gets the
status 502. -/
theorem C144_request (w : World) (peer : Peer) (h : HMsg) (b : Bytes) (he : w.env.Ample) (he' : w.env'.Ample)
    (hf : Forwarded w peer { h with body := none }) :
    (Forwarded w peer { h with body := some b } ↔ b.length ≤ 8192) ∧
    (8192 < b.length → BadGateway (process w peer { h with body := some b }).res) := by
  have hh : ∀ x, head w.env { h with body := x } = head w.env h := fun _ => rfl
  cases hd : head w.env h with
  | fail e c =>
    exfalso
    apply hf
    unfold process
    rw [reqToCoap_head, hh, hd]
    rfl
  | ub =>
    exfalso
    apply hf
    unfold process
    rw [reqToCoap_head, hh, hd]
    rfl
  | ok m =>
    have h0 : Cross.reqToCoap w.env BODY_LEN { h with body := none } = .ok (Msg.setPayload m [], none) := by
      rw [reqToCoap_head, hh, hd]
      rfl
    have hlong : 8192 < b.length → Cross.reqToCoap w.env BODY_LEN { h with body := some b } = .fail .ENOSPC 502 := by
      intro hl
      rw [reqToCoap_head, hh, hd]
      show Cross.bodyToCoap w.env BODY_LEN m b = _
      unfold Cross.bodyToCoap
      rw [if_pos (by omega), if_pos (show b.length > BODY_LEN from hl)]
    have hshort : b.length ≤ 8192 → ∃ req blocks, Cross.reqToCoap w.env BODY_LEN { h with body := some b } = .ok (req, blocks) ∧
        req.codeDetail = (Msg.setPayload m []).codeDetail := by
      intro hl
      rw [reqToCoap_head, hh, hd]
      show ∃ req blocks, Cross.bodyToCoap w.env BODY_LEN m b = _ ∧ _
      unfold Cross.bodyToCoap
      split
      · rw [if_neg (show ¬ b.length > BODY_LEN from Nat.not_lt.2 hl)]
        exact ⟨_, _, rfl, rfl⟩
      · rw [if_neg (by rw [he.2.2.2]; rintro ⟨-, h⟩; cases h)]
        exact ⟨_, _, rfl, rfl⟩
    have k0 := (process_calls h0).1 hf
    refine ⟨⟨fun hx => ?_, fun hl => ?_⟩, fun hl => ?_⟩
    · apply Classical.byContradiction
      intro hl
      apply hx
      unfold process
      rw [hlong (by omega)]
    · obtain ⟨req, blocks, h1, h2⟩ := hshort hl
      refine (process_calls h1).2 ⟨k0.1, ?_⟩
      rw [h2]
      exact k0.2
    · unfold process
      rw [hlong hl]
      dsimp only
      rw [errorResp_ample he']
      exact ⟨_, rfl, by decide +kernel, rfl⟩

/-- The hypotheses are met. -/
example : Forwarded (world hello) none (request "PUT" "coap://h:5683/a" none) := by
  unfold Forwarded
  decide +kernel

theorem opToHttp_iff {env : Cross.Env} (he : env.Ample) (h : HMsg) (o : Msg.Op) :
    ((∃ h', Cross.opToHttp env h o = .ok h') ∧ o.val.length ≤ 255) ∨ (Cross.opToHttp env h o = .err .ENOSPC ∧ 255 < o.val.length) := by
  have hsh : ∀ h n v, ∃ h', Cross.setHeader env h n v = .ok h' := by
    intro h n v
    unfold Cross.setHeader Http.addHeader
    simp only [he.2.1, Bool.and_self, if_true]
    exact ⟨_, rfl⟩
  unfold Cross.opToHttp
  by_cases hl : o.val.length ≥ Cross.TMP
  · rw [if_pos hl]
    exact Or.inr ⟨rfl, hl⟩
  · rw [if_neg hl]
    refine Or.inl ⟨?_, Nat.le_of_lt_succ (Nat.not_le.1 hl)⟩
    rw [Cross.toTmp_ok (by rw [List.length_nil]; omega), Out.bind_ok]
    split
    · exact hsh _ _ _
    split
    · split
      · exact ⟨_, rfl⟩
      · exact hsh _ _ _
    split
    · split
      · exact hsh _ _ _
      · exact ⟨_, rfl⟩
    · exact ⟨_, rfl⟩

theorem opsToHttp_iff {env : Cross.Env} (he : env.Ample) : ∀ (ops : List Msg.Op) (h : HMsg),
    ((∃ h', Cross.opsToHttp env h ops = .ok h') ∧ ∀ o ∈ ops, o.val.length ≤ 255) ∨
      (Cross.opsToHttp env h ops = .err .ENOSPC ∧ ∃ o ∈ ops, 255 < o.val.length)
  | [], h => Or.inl ⟨⟨h, rfl⟩, fun o ho => by cases ho⟩
  | o :: ops, h => by
    unfold Cross.opsToHttp
    rcases opToHttp_iff he h o with ⟨⟨h', e⟩, hl⟩ | ⟨e, hl⟩
    · rw [e, Out.bind_ok]
      rcases opsToHttp_iff he ops h' with ⟨g1, g2⟩ | ⟨g1, x, g2, g3⟩
      · refine Or.inl ⟨g1, fun x hx => ?_⟩
        rcases List.mem_cons.1 hx with rfl | hx
        · exact hl
        · exact g2 x hx
      · exact Or.inr ⟨g1, x, List.mem_cons_of_mem _ g2, g3⟩
    · rw [e]
      exact Or.inr ⟨rfl, o, List.mem_cons_self, hl⟩

/-- The last step of the conversion of a response. -/
theorem content_ok {env : Cross.Env} (he : env.Ample) (m : Msg) {buf : Bytes} {len : Nat} (hl : len ≤ buf.length) (h : HMsg) :
    ∃ h', (if len > 0 then Cross.bodyToHttp env h buf len
      else if m.payload.length > 0 then Cross.bodyToHttp env h m.payload m.payload.length else pure h) = .ok h' := by
  have hb : ∀ b n, n ≤ b.length → ∃ h', Cross.bodyToHttp env h b n = .ok h' := by
    intro b n hn
    unfold Cross.bodyToHttp Cross.setBody
    rw [if_neg (by rw [he.2.1]; decide), if_pos hn, Out.bind_ok]
    unfold Cross.setHeader Http.addHeader
    simp only [he.2.1, Bool.and_self, if_true]
    exact ⟨_, rfl⟩
  split
  · exact hb _ _ hl
  split
  · exact hb _ _ (Nat.le_refl _)
  · exact ⟨_, rfl⟩

/-- A response that reaches the HTTP client without its options reaches it with options of up to 255 bytes. With a longer one it does not, whatever the option
is; the error is that there is no space, and the status for the HTTP client is 502. -/
theorem C144_response (env : Cross.Env) (m : Msg) (buf : Bytes) (len : Nat) (he : env.Ample) (hl : len ≤ buf.length)
    (h0 : ∃ h, Cross.respToHttp env { m with ops := [] } buf len = .ok h) :
    ((∃ h, Cross.respToHttp env m buf len = .ok h) ↔ ∀ o ∈ m.ops, o.val.length ≤ 255) ∧
    ((∃ o ∈ m.ops, 255 < o.val.length) → Cross.respToHttp env m buf len = .fail .ENOSPC 502) := by
  obtain ⟨h, h0⟩ := h0
  have hs : ∃ h1, Cross.status env Cross.emptyHttp m = .ok h1 := by
    unfold Cross.respToHttp at h0
    rw [Cross.coded_eq_ok] at h0
    obtain ⟨h1, e, -⟩ := Out.bind_eq_ok.1 h0
    exact ⟨h1, e⟩
  obtain ⟨h1, hs⟩ := hs
  unfold Cross.respToHttp
  rw [hs, Out.bind_ok]
  rcases opsToHttp_iff he m.ops h1 with ⟨⟨h2, e⟩, g⟩ | ⟨e, o, g1, g2⟩
  · rw [e, Out.bind_ok]
    obtain ⟨h3, e3⟩ := content_ok he m hl h2
    rw [e3]
    refine ⟨iff_of_true ⟨h3, rfl⟩ g, ?_⟩
    rintro ⟨o, g1, g2⟩
    have := g o g1
    omega
  · rw [e]
    refine ⟨iff_of_false ?_ (fun h => ?_), fun _ => rfl⟩
    · rintro ⟨h, hx⟩; cases hx
    · have := h o g1
      omega

/-- The hypotheses are met by a response with an entity tag. -/
example : (∃ h, Cross.respToHttp Cross.ample { ({ hello with ops := [⟨4, [1]⟩] } : Msg) with ops := [] } [] 0 = .ok h) :=
  ⟨⟨str "HTTP/1.1", str "200", str "OK", [⟨str "Content-Length", str "5"⟩], some (str "hello")⟩, by decide +kernel⟩

end FreeCoAP.Proxy

namespace FreeCoAP.Sample

open FreeCoAP.Msg
open FreeCoAP.Server (HAct Addr)

theorem pathOf_iff (ops : List Msg.Op) : ((∃ p, pathOf ops = .ok p) ∧ (pathStr ops).length ≤ 31) ∨ (pathOf ops = .err .ENOSPC ∧ 31 < (pathStr ops).length) := by
  obtain ⟨b, h, -⟩ := C15_path_string_partial ops (List.replicate PATH_LEN 0) PATH_LEN (by simp) (Or.inl (by decide))
  unfold pathOf
  rw [h, Out.bind_ok]
  dsimp only
  by_cases hl : (pathStr ops).length + 1 > PATH_LEN
  · rw [if_pos hl]
    exact Or.inr ⟨rfl, Nat.lt_of_succ_lt_succ hl⟩
  · rw [if_neg hl]
    exact Or.inl ⟨⟨_, rfl⟩, Nat.le_of_succ_le_succ (Nat.not_lt.1 hl)⟩

/-- The sample for registrations answers requests whose path has up to 31 bytes. For a longer one its handler fails because there is no space, so that the client
does not learn that there is no such resource. -/
theorem C144_path (L : Nat) (ntop : Addr → Option Bytes) (alloc : List Nat → Option Nat) (mem : Nat → Bool) (r : Reg) (a : Addr) (req : Msg) (hv : req.ver = 1)
    (hp : pathStr req.ops ≠ str "/client/id") (h0 : (0 : Byte) ∉ pathStr req.ops) :
    ((pathStr req.ops).length ≤ 31 → ∃ resp, handle L ntop alloc mem r a req = .ok (.reply resp none, r) ∧ resp.codeClass = 4 ∧ resp.codeDetail = 4) ∧
    (31 < (pathStr req.ops).length → ∃ resp, handle L ntop alloc mem r a req = .ok (.reply resp (some .ENOSPC), r)) := by
  obtain ⟨b, h, hdrop, htake⟩ := C15_path_string_partial req.ops (List.replicate PATH_LEN 0) PATH_LEN (by simp) (Or.inl (by decide))
  unfold handle
  rw [if_neg (fun h => h hv)]
  rcases pathOf_iff req.ops with ⟨⟨p, e⟩, hl⟩ | ⟨e, hl⟩
  · refine ⟨fun _ => ?_, fun hx => by omega⟩
    have hpp : p = pathStr req.ops := by
      have hb : b = pathStr req.ops ++ 0 :: List.replicate (31 - (pathStr req.ops).length) 0 := by
        rw [← List.take_append_drop PATH_LEN b, htake, hdrop]
        have h1 : (pathStr req.ops).take (PATH_LEN - 1) = pathStr req.ops := List.take_of_length_le hl
        have h2 : min (pathStr req.ops).length (PATH_LEN - 1) = (pathStr req.ops).length := Nat.min_eq_left hl
        have h3 : PATH_LEN - (pathStr req.ops).length = (31 - (pathStr req.ops).length) + 1 := by
          show 32 - (pathStr req.ops).length = _
          omega
        rw [h1, h2, h3, List.drop_of_length_le (by simp), List.append_nil]
        rfl
      unfold pathOf at e
      rw [h, Out.bind_ok] at e
      dsimp only at e
      split at e
      · cases e
      · cases e
        rw [hb, cstr_append h0]
    rw [e]
    dsimp only
    rw [if_pos (by rw [hpp]; exact hp)]
    exact ⟨_, rfl, rfl, rfl⟩
  · refine ⟨fun hx => by omega, fun _ => ?_⟩
    rw [e]
    exact ⟨_, rfl⟩

/-- A request for another resource, with a path of 32 bytes: the hypotheses of the second part are met. -/
def exLong : Msg := { Msg.create with codeDetail := 1, ops := [⟨11, List.replicate 31 97⟩] }

example : exLong.ver = 1 ∧ pathStr exLong.ops ≠ str "/client/id" ∧ (0 : Byte) ∉ pathStr exLong.ops ∧ 31 < (pathStr exLong.ops).length := by decide +kernel

/-- One byte less, and those of the first part are. -/
example : (pathStr [⟨11, List.replicate 30 97⟩]).length ≤ 31 ∧ (0 : Byte) ∉ pathStr [⟨11, List.replicate 30 97⟩] := by decide +kernel

end FreeCoAP.Sample
