import Verif.Proxy.SpecReply
import Verif.Proxy.PropsEnd

/-!
# Lemmas for a request through the proxy over a network that delivers
-/

namespace FreeCoAP.Proxy

open FreeCoAP.Http (HMsg Header CRLF)
open FreeCoAP.Msg (Msg Op)
open FreeCoAP.Server (Built)
open FreeCoAP.Cross (setHeader setBody opToHttp opsToHttp status respToHttp toTmp digits TMP)

/-! ## The conversion of an answer -/

theorem setHeader_ample {env : Cross.Env} (he : env.Ample) (h : HMsg) (n v : Bytes) :
    setHeader env h n v = .ok { h with headers := h.headers ++ [⟨n, v⟩] } := by
  unfold setHeader Http.addHeader
  rw [he.2.1, he.2.1, he.2.1]
  rfl

theorem setBody_ample {env : Cross.Env} (he : env.Ample) (h : HMsg) {buf : Bytes} {len : Nat} (hl : len ≤ buf.length) :
    setBody env h buf len = .ok { h with body := some (buf.take len) } := by
  unfold setBody
  rw [he.2.1, if_neg (by decide), if_pos hl]

/-- The length of the lines of headers. -/
def lines (hs : List Header) : Nat := (hs.flatMap (fun h => h.name ++ str ": " ++ h.value ++ CRLF)).length

theorem lines_append (a b : List Header) : lines (a ++ b) = lines a + lines b := by
  unfold lines
  rw [List.flatMap_append, List.length_append]

theorem lines_one (n v : Bytes) : lines [⟨n, v⟩] = n.length + v.length + 4 := by
  unfold lines
  simp only [List.flatMap_cons, List.flatMap_nil, List.append_nil, List.length_append]
  rw [show (str ": ").length = 2 by decide, show CRLF.length = 2 by decide]
  omega

/-- The length of the values of options. -/
def total (ops : List Op) : Nat := (ops.map (fun o => o.val.length)).sum

theorem cstr_le (b : Bytes) : (cstr b).length ≤ b.length := List.Sublist.length_le (List.takeWhile_sublist _)

theorem opToHttp_goes {env : Cross.Env} (he : env.Ample) (h : HMsg) {o : Op} (hl : o.val.length < 256) :
    ∃ hs, opToHttp env h o = .ok { h with headers := h.headers ++ hs } ∧ lines hs ≤ o.val.length + 40 := by
  have ht : toTmp [] o.val = .ok o.val := by
    unfold toTmp
    rw [if_pos (show ([] : Bytes).length + o.val.length < TMP by
      show 0 + _ < 256
      omega)]
    rfl
  have hz : lines [] ≤ o.val.length + 40 := by
    show 0 ≤ _
    omega
  have hn : ({ h with headers := h.headers ++ [] } : HMsg) = h := by rw [List.append_nil]
  unfold opToHttp
  rw [if_neg (show ¬ o.val.length ≥ TMP by show ¬ _ ≥ 256; omega), ht, Out.bind_ok]
  split
  · refine ⟨_, setHeader_ample he _ _ _, ?_⟩
    rw [lines_one, show (str "Etag").length = 4 by decide]
    have := cstr_le o.val
    omega
  · split
    · split
      · exact ⟨[], by rw [hn]; rfl, hz⟩
      · rename_i n hn
        refine ⟨_, setHeader_ample he _ _ _, ?_⟩
        rw [lines_one, List.length_append, show (str "Cache-Control").length = 13 by decide, show (str "max-age=").length = 8 by decide]
        have := Cross.digits_length 9 n
        omega
    · split
      · split
        · refine ⟨_, setHeader_ample he _ _ _, ?_⟩
          rw [lines_one, show (str "Accept").length = 6 by decide, show (str "text/plain").length = 10 by decide]
          omega
        · exact ⟨[], by rw [hn]; rfl, hz⟩
      · exact ⟨[], by rw [hn]; rfl, hz⟩

theorem opsToHttp_goes {env : Cross.Env} (he : env.Ample) : ∀ (ops : List Op) (h : HMsg), (∀ o ∈ ops, o.val.length < 256) →
    ∃ hs, opsToHttp env h ops = .ok { h with headers := h.headers ++ hs } ∧ lines hs ≤ total ops + 40 * ops.length
  | [], h, _ => ⟨[], by rw [List.append_nil]; rfl, Nat.zero_le _⟩
  | o :: ops, h, hl => by
    obtain ⟨l, e1, b1⟩ := opToHttp_goes he h (hl o (List.mem_cons_self ..))
    obtain ⟨hs, e2, b2⟩ := opsToHttp_goes he ops { h with headers := h.headers ++ l } (fun o ho => hl o (List.mem_cons_of_mem _ ho))
    refine ⟨l ++ hs, ?_, ?_⟩
    · rw [opsToHttp, e1, Out.bind_ok, e2]
      simp only [List.append_assoc]
    · rw [lines_append]
      have : total (o :: ops) = o.val.length + total ops := by simp [total]
      rw [this, List.length_cons]
      omega

/-- The status lines are short. -/
theorem statusLine_short : ∀ p ∈ Cross.registered, ∃ c r, Cross.statusLine p.1 p.2 = some (c, r) ∧ (str c).length = 3 ∧ (str r).length ≤ 60 := by
  have key : ∀ p ∈ Cross.registered, (match Cross.statusLine p.1 p.2 with
      | some (c, r) => decide ((str c).length = 3) && decide ((str r).length ≤ 60)
      | none => false) = true := by decide +kernel
  intro p hp
  have key := key p hp
  split at key
  · rename_i c r hs
    simp only [Bool.and_eq_true, decide_eq_true_eq] at key
    exact ⟨c, r, hs, key.1, key.2⟩
  · cases key

/-- An answer that can be given in one message is given, in a text that is not long. -/
theorem respToHttp_goes {env : Cross.Env} (he : env.Ample) {m : Msg} (hm : Convertible m) (buf : Bytes) :
    ∃ h, respToHttp env m buf 0 = .ok h ∧ (Http.text h).length ≤ total m.ops + m.payload.length + 2700 ∧
      ∀ code, ((m.codeClass, m.codeDetail), code) ∈ Cross.table → h.start1 = str code := by
  obtain ⟨c, r, hs, hc, hr⟩ := statusLine_short _ hm.code
  have e1 : status env Cross.emptyHttp m = .ok { Cross.emptyHttp with start0 := str "HTTP/1.1", start1 := str c, start2 := str r } := by
    unfold status
    dsimp only at hs
    rw [hs]
    unfold Cross.setStart Cross.strdup
    dsimp only
    rw [if_pos (he.2.1 _), if_pos (he.2.1 _), if_pos (he.2.1 _)]
    rfl
  have hcode : ∀ code, ((m.codeClass, m.codeDetail), code) ∈ Cross.table → str c = str code := fun code ht => (Cross.C45_table ht e1).2.1
  obtain ⟨l, e2, b2⟩ := opsToHttp_goes he m.ops { Cross.emptyHttp with start0 := str "HTTP/1.1", start1 := str c, start2 := str r } hm.short
  have hfew := hm.few
  have hv : (str "HTTP/1.1").length = 8 := by decide
  have hsp : (str " ").length = 1 := by decide
  have hcr : CRLF.length = 2 := by decide
  have text : ∀ (hs : List Header) (b : Option Bytes), (Http.text ⟨str "HTTP/1.1", str c, str r, hs, b⟩).length =
      8 + 1 + 3 + 1 + (str r).length + 2 + lines hs + 2 + (b.getD []).length := by
    intro hs b
    unfold Http.text lines
    simp only [List.length_append, hv, hsp, hcr, hc]
  by_cases hp : m.payload.length > 0
  · refine ⟨⟨str "HTTP/1.1", str c, str r, l ++ [⟨str "Content-Length", digits 19 m.payload.length⟩], some m.payload⟩, ?_, ?_, hcode⟩
    · unfold respToHttp
      rw [e1, Out.bind_ok, e2, Out.bind_ok, if_neg (by decide), if_pos hp]
      unfold Cross.bodyToHttp
      rw [setBody_ample he _ (Nat.le_refl _), Out.bind_ok, setHeader_ample he, List.take_of_length_le (Nat.le_refl _)]
      rfl
    · rw [text, lines_append, lines_one, show (str "Content-Length").length = 14 by decide]
      have := Cross.digits_length 19 m.payload.length
      show _ + m.payload.length ≤ _
      omega
  · refine ⟨⟨str "HTTP/1.1", str c, str r, l, none⟩, ?_, ?_, hcode⟩
    · unfold respToHttp
      rw [e1, Out.bind_ok, e2, Out.bind_ok, if_neg (by decide), if_neg hp]
      rfl
    · rw [text]
      show _ + 0 ≤ _
      omega

/-! ## The length of an answer -/

theorem encOps_total : ∀ (ops : List Op) (prev : Nat), total ops ≤ (Msg.encOps prev ops).length
  | [], _ => Nat.zero_le _
  | o :: ops, prev => by
    have := encOps_total ops o.num
    have ht : total (o :: ops) = o.val.length + total ops := by simp [total]
    rw [ht, Msg.encOps, List.length_append, Msg.encOp_length]
    have hl : o.len = o.val.length := rfl
    omega

theorem enc_total (m : Msg) : total m.ops + m.payload.length ≤ (Msg.enc m).length := by
  have h1 := encOps_total m.ops 0
  have h2 : m.payload.length ≤ (Msg.encPayload m).length := by
    unfold Msg.encPayload
    split
    · omega
    · simp
  simp only [Msg.enc, List.length_append]
  omega

theorem answer_short {sx px : Bool} {resp : Msg} (h : EndToEnd.Answerable sx px resp) (hb : Built resp) :
    total resp.ops + resp.payload.length < 1152 := by
  obtain ⟨b, hf, hl⟩ := h.short { resp with type := Msg.ACK, token := [0, 0, 0, 0] } ⟨rfl, rfl, rfl, rfl⟩
    ⟨hb.ver, (by decide : Msg.ACK < 4), hb.cls, hb.detail, hb.msgId, (by decide : 4 ≤ 8), hb.sorted⟩ (by decide : Msg.ACK ≠ Msg.RST) rfl
  obtain ⟨-, rfl⟩ := Client.formats_iff.1 hf
  have := enc_total { resp with type := Msg.ACK, token := [0, 0, 0, 0] }
  exact Nat.lt_of_le_of_lt this hl

/-! ## The exchange of the proxy -/

/-- A response in one message is passed on. -/
theorem process_reply {w : World} {peer : Peer} {h : HMsg} {req r : Msg} {host port : Bytes} (g : Goes w h req none host port)
    (hx : w.exchange req = .ok r) (hd : h.start0 ≠ str "DELETE") (hn : (∀ o ∈ r.ops, o.num ≠ 23) ∧ ¬ (r.codeClass = 4 ∧ r.codeDetail = 13)) :
    ∃ p, Is p host port ∧ process w peer h = ⟨some p, [(p, .plain req)], respond w (.ok (r, (bodyBuf none).1, 0))⟩ := by
  obtain ⟨p, hp, ep⟩ := process_goes (peer := peer) g
  refine ⟨p, hp, ?_⟩
  have hz : (bodyBuf none).2 = 0 := rfl
  have hm := (Cross.C58_request g.headers g.conv).method.1
  have hsend : exchangeSend w req (bodyBuf none).1 (bodyBuf none).2 = ⟨[.plain req], .ok (r, (bodyBuf none).1, 0)⟩ := by
    unfold exchangeSend
    rw [hz, if_neg (by decide), hx]
    dsimp only
    rw [if_neg hn.2]
  have key : exchange w req (bodyBuf none).1 (bodyBuf none).2 = ⟨[.plain req], .ok (r, (bodyBuf none).1, 0)⟩ := by
    simp only [Cross.methods, List.mem_cons, List.not_mem_nil, or_false, Prod.mk.injEq] at hm
    unfold exchange
    rcases hm with ⟨-, e⟩ | ⟨-, e⟩ | ⟨-, e⟩ | ⟨e, -⟩
    · rw [if_pos e]
      unfold exchangeGet
      rw [hx]
      dsimp only
      rw [Server.parseBlockOp_none hn.1, hz]
    · rw [if_neg (by rw [e]; decide), if_neg (by rw [e]; decide), if_pos e]
      exact hsend
    · rw [if_neg (by rw [e]; decide), if_pos e]
      exact hsend
    · exact absurd e hd
  rw [ep, key]
  rfl

end FreeCoAP.Proxy
