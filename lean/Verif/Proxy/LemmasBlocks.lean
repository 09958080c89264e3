import Verif.Proxy.SpecBlocks
import Verif.Proxy.PropsReply

/-!
# Lemmas for a resource in blocks that is fetched through the proxy
-/

namespace FreeCoAP.Proxy

open FreeCoAP.Http (HMsg Header CRLF)
open FreeCoAP.Msg (Msg Op)
open FreeCoAP.Cross (setHeader setBody opToHttp opsToHttp status respToHttp toTmp digits TMP)

/-- The HTTP response with the body. -/
def whole (src : Bytes) : HMsg :=
  if src = [] then ⟨str "HTTP/1.1", str "200", str "OK", [], none⟩
  else ⟨str "HTTP/1.1", str "200", str "OK", [⟨str "Content-Length", digits 19 src.length⟩], some src⟩

theorem respToHttp_whole {env : Cross.Env} (he : env.Ample) {m : Msg} {src rest : Bytes} (h1 : m.codeClass = 2)
    (h2 : m.codeDetail = 1 ∨ m.codeDetail = 4 ∨ m.codeDetail = 5)
    (ho : ∀ o ∈ m.ops, (o.num = 23 ∨ o.num = 27) ∧ o.val.length = 3) (hp : src = [] → m.payload = []) :
    respToHttp env m (src ++ rest) src.length = .ok (whole src) := by
  have hline : Cross.statusLine 2 m.codeDetail = some ("200", "OK") := by
    rcases h2 with h2 | h2 | h2 <;> rw [h2] <;> decide
  have e1 : status env Cross.emptyHttp m = .ok { Cross.emptyHttp with start0 := str "HTTP/1.1", start1 := str "200", start2 := str "OK" } := by
    unfold status
    rw [h1, hline]
    unfold Cross.setStart Cross.strdup
    dsimp only
    rw [if_pos (he.2.1 _), if_pos (he.2.1 _), if_pos (he.2.1 _)]
    rfl
  have e2 : ∀ (l : List Op) h, (∀ o ∈ l, (o.num = 23 ∨ o.num = 27) ∧ o.val.length = 3) → opsToHttp env h l = .ok h := by
    intro l
    induction l with
    | nil => exact fun _ _ => rfl
    | cons o l ih =>
      intro h hl
      obtain ⟨hn, hv⟩ := hl o (List.mem_cons_self ..)
      have ht : toTmp [] o.val = .ok o.val := by
        unfold toTmp
        rw [if_pos (show ([] : Bytes).length + o.val.length < TMP by
          show 0 + _ < 256
          omega)]
        rfl
      have e : opToHttp env h o = .ok h := by
        unfold opToHttp
        rw [if_neg (show ¬ o.val.length ≥ TMP by show ¬ _ ≥ 256; omega), ht, Out.bind_ok, if_neg (by omega), if_neg (by omega), if_neg (by omega)]
        rfl
      rw [opsToHttp, e, Out.bind_ok]
      exact ih h (fun o ho => hl o (List.mem_cons_of_mem _ ho))
  unfold respToHttp whole
  rw [e1, Out.bind_ok, e2 _ _ ho, Out.bind_ok]
  by_cases hs : src = []
  · subst hs
    rw [if_pos rfl, if_neg (by decide), hp rfl]
    rfl
  · have hpos : src.length > 0 := List.length_pos_iff.2 hs
    rw [if_neg hs, if_pos hpos]
    unfold Cross.bodyToHttp
    rw [setBody_ample he _ (by rw [List.length_append]; omega), Out.bind_ok, setHeader_ample he, List.take_left]
    rfl

theorem digits_step {f n : Nat} (h : 10 ≤ n) : (digits (f + 1) n).length = (digits f (n / 10)).length + 1 := by
  rw [digits, if_neg (by omega)]
  simp

theorem digits_four {n : Nat} (h : 1000 ≤ n) (h' : n < 10000) : (digits 19 n).length = 4 := by
  rw [digits_step (by omega), digits_step (by omega), digits_step (by omega), digits, if_pos (by omega)]
  rfl

theorem whole_text {src : Bytes} (h : src ≠ []) : (Http.text (whole src)).length = 37 + (digits 19 src.length).length + src.length := by
  unfold whole Http.text
  rw [if_neg h]
  simp only [List.length_append, List.flatMap_cons, List.flatMap_nil, List.append_nil, Option.getD_some]
  rw [show (str "HTTP/1.1").length = 8 by decide, show (str " ").length = 1 by decide, show (str "200").length = 3 by decide, show (str "OK").length = 2 by decide,
    show CRLF.length = 2 by decide, show (str "Content-Length").length = 14 by decide, show (str ": ").length = 2 by decide]
  omega

/-- The length of the response, and when it is not one with which the proxy has a problem. -/
theorem whole_fits {src : Bytes} (h : src.length ≤ 8192) :
    (Http.text (whole src)).length ≤ src.length + 57 ∧
    (src.length ≠ 4055 → src.length ≠ 8151 → ¬ IsSize (Http.text (whole src)).length) := by
  by_cases hs : src = []
  · subst hs
    refine ⟨by decide, fun _ _ => by decide⟩
  · rw [whole_text hs]
    have hd := Cross.digits_length 19 src.length
    refine ⟨by omega, fun n1 n2 hi => ?_⟩
    simp only [IsSize, List.mem_cons, List.not_mem_nil, or_false] at hi
    have hr : 1000 ≤ src.length := by omega
    rw [digits_four hr (by omega)] at hi
    omega

/-- The response is the one for a message `r` with the whole body. -/
theorem whole_relayed {env : Cross.Env} {m r : Msg} {src rest : Bytes} (e : respToHttp env m (src ++ rest) src.length = .ok (whole src)) (h1 : m.codeClass = 2)
    (h2 : m.codeDetail = 1 ∨ m.codeDetail = 4 ∨ m.codeDetail = 5) (ho : ∀ o ∈ m.ops, (o.num = 23 ∨ o.num = 27) ∧ o.val.length = 3) (hp : src = [] → m.payload = [])
    (hr1 : r.codeClass = 2) (hr2 : r.codeDetail = m.codeDetail) (hr3 : r.ops = []) (hr4 : r.payload = src) : Relayed r (whole src) := by
  have hc : Cross.contentOf src m = src := by
    unfold Cross.contentOf
    split
    · rename_i h; rw [hp h, h]
    · rfl
  have hc' : Cross.contentOf [] r = src := by
    unfold Cross.contentOf
    rw [if_pos rfl]
    exact hr4
  have rf := Cross.C59_response e
  rw [List.take_left] at rf
  obtain ⟨r1, r2, r3, r4, r5⟩ := rf
  rw [hc] at r3 r4
  rw [h1] at r2
  refine ⟨⟨r1, by rw [hr1, hr2]; exact r2, by rw [hc']; exact r3, by rw [hc']; exact r4, ?_⟩, ?_⟩
  · rw [r5]
    unfold Cross.values
    rw [hr3, List.filter_eq_nil_iff.2 (fun o ho' => by have := (ho o ho').1; simp; omega)]
    rfl
  · intro code ht
    have : ∀ p ∈ Cross.table, p.1 = (2, 1) ∨ p.1 = (2, 4) ∨ p.1 = (2, 5) → p.2 = "200" := by decide +kernel
    have hcode : code = "200" := this _ ht (by
      show (r.codeClass, r.codeDetail) = _ ∨ (r.codeClass, r.codeDetail) = _ ∨ (r.codeClass, r.codeDetail) = _
      rw [hr1, hr2]
      rcases h2 with h2 | h2 | h2 <;> rw [h2] <;> decide)
    rw [hcode]
    unfold whole
    split <;> rfl

/-- The HTTP client can read the response. -/
theorem whole_read {env : Cross.Env} (he : env.Ample) {m : Msg} {src rest : Bytes} (hroom : src.length ≤ 8192) (hz : 0x00 ∉ src)
    (e : respToHttp env m (src ++ rest) src.length = .ok (whole src)) (ho : ∀ o ∈ m.ops, o.num = 23 ∨ o.num = 27) (hp : src = [] → m.payload = []) :
    Http.parse env.http (Http.text (whole src)) = .ok (whole src, (Http.text (whole src)).length) := by
  have hcon : Cross.contentOf ((src ++ rest).take src.length) m = src := by
    rw [List.take_left]
    unfold Cross.contentOf
    split
    · rename_i hs; rw [hp hs, hs]
    · rfl
  have w1 := (whole_fits hroom).1
  have hlen : (Http.text (whole src)).length < (List.replicate 9000 (0 : Byte)).length := by rw [List.length_replicate]; omega
  obtain ⟨b, -, j2, j3⟩ := Cross.C59_text_partial (out := List.replicate 9000 0) (n := (List.replicate 9000 (0 : Byte)).length) he
    (by rw [hcon]; omega) e
    (by
      unfold Cross.values
      rw [List.filter_eq_nil_iff.2 (fun o ho' => by have := ho o ho'; simp; omega)]
      intro v hv
      cases hv) (by rw [hcon]; exact hz) (Nat.le_refl _) hlen []
  rw [List.append_nil, j2] at j3
  exact j3

/-- The exchanges of the proxy for a resource in blocks. -/
theorem process_blocks {w : World} {peer : Peer} {h : HMsg} {req r rp : Msg} {host port body : Bytes} {size n : Nat} (g : Goes w h req none host port)
    (hget : req.codeDetail = 1) (hx : w.exchange req = .ok r) {more : Bool} (hb : Msg.parseBlockOp Msg.BLOCK2 r.ops = .ok (some ⟨0, more, size⟩))
    (hk : w.blockwise req r size size (bodyBuf none).1 BODY_LEN true = .ok (n, rp, body)) :
    ∃ p, Is p host port ∧ process w peer h = ⟨some p, [(p, .plain req), (p, .blocks req size size (bodyBuf none).1 true)], respond w (.ok (rp, body, n))⟩ := by
  obtain ⟨p, hp, ep⟩ := process_goes (peer := peer) g
  refine ⟨p, hp, ?_⟩
  have key : exchange w req (bodyBuf none).1 (bodyBuf none).2 = ⟨[.plain req, .blocks req size size (bodyBuf none).1 true], .ok (rp, body, n)⟩ := by
    unfold exchange
    rw [if_pos hget]
    unfold exchangeGet
    rw [hx]
    dsimp only
    rw [hb]
    dsimp only
    unfold inBlocks
    rw [hk, Out.bind_ok, List.take_of_length_le (show (bodyBuf none).1.length ≤ BODY_LEN from Nat.le_of_eq (List.length_replicate ..))]
    rfl
  rw [ep, key]
  rfl

end FreeCoAP.Proxy
