import Verif.Cross.Props2

/-!
# C58: requests
-/

namespace FreeCoAP.Cross

open FreeCoAP.Msg (Msg Op Sorted)
open FreeCoAP.Http (HMsg Header)

theorem method_ok {m m' : Msg} {h : HMsg} (e : method m h = .ok m') :
    (h.start0, m'.codeDetail) ∈ methods ∧ m' = { m with codeClass := 0, codeDetail := m'.codeDetail } := by
  unfold method at e
  unfold methods
  split at e
  · rename_i hh; cases e; rw [hh]; exact ⟨by simp, rfl⟩
  split at e
  · rename_i hh; cases e; rw [hh]; exact ⟨by simp, rfl⟩
  split at e
  · rename_i hh; cases e; rw [hh]; exact ⟨by simp, rfl⟩
  split at e
  · rename_i hh; cases e; rw [hh]; exact ⟨by simp, rfl⟩
  · cases e

theorem method_ops {m m' : Msg} {h : HMsg} (e : method m h = .ok m') : m'.ops = m.ops ∧ m'.payload = m.payload ∧ m'.type = m.type := by
  rw [(method_ok e).2]; exact ⟨rfl, rfl, rfl⟩

/-- What is known of the CoAP request for an HTTP request. `space` is the room for a body that does not fit in a message. -/
structure RequestFor (h : HMsg) (space : Nat) (m : Msg) (blocks : Option Bytes) : Prop where
  /-- The method is that of the HTTP request. -/
  method : (h.start0, m.codeDetail) ∈ methods ∧ m.codeClass = 0
  /-- The message is confirmable. -/
  type : m.type = 0
  /-- The whole body goes with the request: in the message up to 1024 bytes, otherwise in blocks. -/
  body : (bodyOf h).length ≤ 1024 ∧ m.payload = bodyOf h ∧ blocks = none ∨
    1024 < (bodyOf h).length ∧ (bodyOf h).length ≤ space ∧ m.payload = [] ∧ blocks = some (bodyOf h)
  /-- The ETag options are the values of the Etag headers. -/
  etag : values 4 m = headerValues "Etag" h.headers
  /-- Only plain text is accepted. -/
  accept : ∀ v ∈ headerValues "Accept" h.headers, (v.take 10).map toLower = str "text/plain"
  /-- There is an Accept option for each Accept header. -/
  accepts : (values 17 m).length = (headerValues "Accept" h.headers).length
  /-- The options are in order. -/
  sorted : Sorted m.ops
  /-- There are no other options than those mentioned, Max-Age and the Uri options. -/
  others : ∀ k, k ≠ 3 → k ≠ 4 → k ≠ 7 → k ≠ 11 → k ≠ 14 → k ≠ 15 → k ≠ 17 → values k m = []

/-- The conversion of a request, step by step. -/
theorem reqToCoap_steps {env : Env} {space : Nat} {h : HMsg} {m : Msg} {blocks : Option Bytes}
    (hl : ∀ x ∈ h.headers, x.value.length < 2 ^ 32) (e : reqToCoap env space h = .ok (m, blocks)) :
    ∃ m1 m2 m3, method Msg.create h = .ok m1 ∧ uriToCoap env m1 h.start1 = .ok m2 ∧ HeadersAdded m2 m3 h.headers ∧
      bodyToCoap env space m3 (bodyOf h) = .ok (m, blocks) ∧ Sorted m2.ops ∧ m2 = { m1 with ops := m2.ops } := by
  unfold reqToCoap at e
  obtain ⟨m1, e1, e⟩ := Reply.bind_eq_ok.1 e
  obtain ⟨m2, e2, e⟩ := Reply.bind_eq_ok.1 e
  obtain ⟨m3, e3, e4⟩ := Reply.bind_eq_ok.1 e
  have hs1 : Sorted m1.ops := by rw [(method_ops e1).1]; exact List.Pairwise.nil
  have k2 := uriToCoap_sorted hs1 (coded_eq_ok.1 e2)
  exact ⟨m1, m2, m3, e1, coded_eq_ok.1 e2, headersToCoap_added k2.1 hl e3, e4, k2.1, k2.2⟩

theorem bodyToCoap_ok {env : Env} {space : Nat} {m m' : Msg} {b : Bytes} {blocks : Option Bytes} (e : bodyToCoap env space m b = .ok (m', blocks)) :
    (b.length ≤ 1024 ∧ m' = { m with payload := b } ∧ blocks = none) ∨
    (1024 < b.length ∧ b.length ≤ space ∧ m' = m ∧ blocks = some b) := by
  unfold bodyToCoap at e
  split at e
  · split at e
    · cases e
    · cases e; exact Or.inr ⟨by omega, by omega, rfl, rfl⟩
  · split at e
    · cases e
    · cases e; exact Or.inl ⟨by omega, rfl, rfl⟩

theorem uriToCoap_values {env : Env} {m m' : Msg} {s : Bytes} (hs : Sorted m.ops) (h : uriToCoap env m s = .ok m') (k : Nat)
    (h3 : k ≠ 3) (h7 : k ≠ 7) (h11 : k ≠ 11) (h15 : k ≠ 15) : values k m' = values k m := by
  have key : ∀ {num : Nat} {m m' : Msg} {s : Bytes}, Sorted m.ops → num ≠ k → addOp env m num s = .ok m' →
      values k m' = values k m ∧ Sorted m'.ops := by
    intro num m m' s hs hn h
    unfold addOp at h
    split at h
    · cases h
      refine ⟨by rw [values_addOp hs, if_neg hn, List.append_nil], ?_⟩
      unfold Msg.addOp
      dsimp only
      rw [Msg.opListAdd_eq]
      exact Msg.ins_sorted _ _ hs
    · cases h
  have kc : ∀ {num : Nat} {m m' : Msg} {o : Option Bytes}, Sorted m.ops → num ≠ k → addComponent env num m o = .ok m' →
      values k m' = values k m ∧ Sorted m'.ops := by
    intro num m m' o hs hn h
    cases o with
    | none => cases h; exact ⟨rfl, hs⟩
    | some s => exact key hs hn h
  have kp : ∀ {num : Nat} (ps : List Bytes) {m m' : Msg}, Sorted m.ops → num ≠ k → addParts env num m ps = .ok m' →
      values k m' = values k m ∧ Sorted m'.ops := by
    intro num ps
    induction ps with
    | nil => intro m m' hs _ h; cases h; exact ⟨rfl, hs⟩
    | cons p ps ih =>
      intro m m' hs hn h
      unfold addParts at h
      split at h
      · obtain ⟨m1, h1, h2⟩ := Out.bind_eq_ok.1 h
        have k1 := key hs hn h1
        have k2 := ih k1.2 hn h2
        exact ⟨k2.1.trans k1.1, k2.2⟩
      · exact ih hs hn h
  unfold uriToCoap at h
  obtain ⟨u, -, h⟩ := Out.bind_eq_ok.1 h
  obtain ⟨_, -, h⟩ := Out.bind_eq_ok.1 h
  obtain ⟨m1, e1, h⟩ := Out.bind_eq_ok.1 h
  obtain ⟨m2, e2, h⟩ := Out.bind_eq_ok.1 h
  obtain ⟨m3, e3, e4⟩ := Out.bind_eq_ok.1 h
  have k1 := kc hs (Ne.symm h3) e1
  have k2 := kc k1.2 (Ne.symm h7) e2
  have k3 : values k m3 = values k m2 ∧ Sorted m3.ops := by
    unfold addPath at e3
    split at e3
    · cases e3; exact ⟨rfl, k2.2⟩
    · split at e3
      · exact kp _ k2.2 (Ne.symm h11) e3
      · cases e3
  have k4 : values k m' = values k m3 ∧ Sorted m'.ops := by
    unfold addQuery at e4
    split at e4
    · cases e4; exact ⟨rfl, k3.2⟩
    · exact kp _ k3.2 (Ne.symm h15) e4
  rw [k4.1, k3.1, k2.1, k1.1]

/-- C58: the CoAP request carries the method, the headers and the whole body of the HTTP request. (Lengths of headers are
below 2^32: the proxy receives a request into a buffer of at most 32768 bytes.) -/
theorem C58_request {env : Env} {space : Nat} {h : HMsg} {m : Msg} {blocks : Option Bytes} (hl : ∀ x ∈ h.headers, x.value.length < 2 ^ 32)
    (e : reqToCoap env space h = .ok (m, blocks)) : RequestFor h space m blocks := by
  obtain ⟨m1, m2, m3, e1, e2, k3, e4, hs2, r2⟩ := reqToCoap_steps hl e
  have hm1 := method_ok e1
  have ho1 := method_ops e1
  have hs1 : Sorted m1.ops := by rw [ho1.1]; exact List.Pairwise.nil
  have hv : ∀ k, k ≠ 3 → k ≠ 7 → k ≠ 11 → k ≠ 15 → values k m2 = [] := by
    intro k a b c d
    rw [uriToCoap_values hs1 e2 k a b c d]
    unfold values
    rw [ho1.1]
    rfl
  have hd : m3.codeDetail = m1.codeDetail ∧ m3.codeClass = 0 ∧ m3.type = 0 ∧ m3.payload = [] := by
    rw [k3.rest, r2]
    dsimp only
    refine ⟨rfl, by rw [hm1.2], ho1.2.2, ho1.2.1⟩
  have hb := bodyToCoap_ok e4
  have hops : m.ops = m3.ops ∧ m.codeDetail = m3.codeDetail ∧ m.codeClass = m3.codeClass ∧ m.type = m3.type := by
    rcases hb with ⟨-, rfl, -⟩ | ⟨-, -, rfl, -⟩ <;> exact ⟨rfl, rfl, rfl, rfl⟩
  have hval : ∀ k, values k m = values k m3 := by intro k; unfold values; rw [hops.1]
  refine ⟨⟨?_, ?_⟩, ?_, ?_, ?_, k3.text, ?_, ?_, ?_⟩
  · rw [hops.2.1, hd.1]; exact hm1.1
  · rw [hops.2.2.1]; exact hd.2.1
  · rw [hops.2.2.2]; exact hd.2.2.1
  · rcases hb with ⟨h1, rfl, h2⟩ | ⟨h1, h2, rfl, h3⟩
    · exact Or.inl ⟨h1, rfl, h2⟩
    · exact Or.inr ⟨h1, h2, hd.2.2.2, h3⟩
  · rw [hval, k3.etag, hv 4 (by decide) (by decide) (by decide) (by decide), List.nil_append]
  · rw [hval, k3.accept, hv 17 (by decide) (by decide) (by decide) (by decide), List.nil_append, List.length_map]
  · rw [hops.1]; exact k3.sorted
  · intro k j1 j2 j3 j4 j5 j6 j7
    rw [hval, k3.others k j2 j5 j7]
    exact hv k j1 j3 j4 j6

/-- C58 with C46: the Uri options of the request are those of the request URI. -/
theorem C58_uri {env : Env} {space : Nat} {h : HMsg} {m : Msg} {blocks : Option Bytes} (he : env.Ample)
    (hl : ∀ x ∈ h.headers, x.value.length < 2 ^ 32) (e : reqToCoap env space h = .ok (m, blocks))
    {r : CoapUri} {host : Bytes} {segs params : List Bytes} (hu : h.start1 = r.text)
    (hw : r.WF) (hlen : r.text.length < 2 ^ 32) (hd : Decoded r host segs params)
    (ha : ∀ s ∈ r.segments, (0x40 : Byte) ∉ s) (hc : r.port = none → ∀ s ∈ r.segments, (0x3A : Byte) ∉ s)
    (h0 : (0 : Byte) ∉ host) (h1 : ∀ s ∈ segs, (0 : Byte) ∉ s ∧ (0x2F : Byte) ∉ s)
    (h2 : ∀ s ∈ params, (0 : Byte) ∉ s ∧ (0x26 : Byte) ∉ s) :
    values 3 m = [host] ∧ values 7 m = r.port.toList ∧ values 11 m = segs.filter (· ≠ []) ∧ values 15 m = params.filter (· ≠ []) := by
  obtain ⟨m1, m2, m3, e1, e2, k3, e4, hs2, r2⟩ := reqToCoap_steps hl e
  have ho1 := method_ops e1
  have hs1 : Sorted m1.ops := by rw [ho1.1]; exact List.Pairwise.nil
  obtain ⟨m2', e2', hO⟩ := C46_options_partial he hs1 hw hlen hd ha hc h0 h1 h2
  rw [hu, e2'] at e2
  cases e2
  have hops : m.ops = m3.ops := by
    rcases bodyToCoap_ok e4 with ⟨-, rfl, -⟩ | ⟨-, -, rfl, -⟩ <;> rfl
  have hval : ∀ k, values k m = values k m3 := by intro k; unfold values; rw [hops]
  have hv1 : ∀ k, values k m1 = [] := by intro k; unfold values; rw [ho1.1]; rfl
  refine ⟨?_, ?_, ?_, ?_⟩
  · rw [hval, k3.others 3 (by decide) (by decide) (by decide), hO.host, hv1, List.nil_append]
  · rw [hval, k3.others 7 (by decide) (by decide) (by decide), hO.port, hv1, List.nil_append]
  · rw [hval, k3.others 11 (by decide) (by decide) (by decide), hO.path, hv1, List.nil_append]
  · rw [hval, k3.others 15 (by decide) (by decide) (by decide), hO.query, hv1, List.nil_append]

theorem headersToCoap_fail {env : Env} : ∀ {hs : List Header} {m : Msg} {e : Err} {c : Nat}, headersToCoap env m hs = .fail e c → c = 406 ∨ c = 502
  | [], m, e, c, h => by cases h
  | x :: hs, m, e, c, h => by
    unfold headersToCoap at h
    rcases Reply.bind_eq_fail.1 h with h | ⟨m1, -, h⟩
    · unfold headerToCoap at h
      split at h
      · exact Or.inr (coded_eq_fail.1 h).2.symm
      split at h
      · split at h
        · cases h
        · exact Or.inr (coded_eq_fail.1 h).2.symm
      split at h
      · split at h
        · exact Or.inr (coded_eq_fail.1 h).2.symm
        · cases h; exact Or.inl rfl
      · cases h
    · exact headersToCoap_fail h

theorem headersToCoap_ne_ub {env : Env} : ∀ {hs : List Header} {m : Msg}, headersToCoap env m hs ≠ .ub
  | [], m => by simp [headersToCoap]
  | x :: hs, m => by
    intro h
    unfold headersToCoap at h
    rcases Reply.bind_eq_ub.1 h with h | ⟨m1, -, h⟩
    · unfold headerToCoap at h
      split at h
      · exact addOp_ne_ub _ _ _ _ (coded_eq_ub.1 h)
      split at h
      · split at h
        · cases h
        · exact addOp_ne_ub _ _ _ _ (coded_eq_ub.1 h)
      split at h
      · split at h
        · exact addOp_ne_ub _ _ _ _ (coded_eq_ub.1 h)
        · cases h
      · cases h
    · exact headersToCoap_ne_ub h

/-- Every request has a defined outcome: if it cannot be converted, there is a status code with a text for the HTTP client. -/
theorem C58_total (env : Env) (space : Nat) (h : HMsg) :
    reqToCoap env space h ≠ .ub ∧ ∀ e c, reqToCoap env space h = .fail e c →
      c ∈ [400, 406, 501, 502] ∧ respText c ≠ str "(Unknown)" := by
  constructor
  · intro hu
    unfold reqToCoap at hu
    rcases Reply.bind_eq_ub.1 hu with hu | ⟨m1, -, hu⟩
    · unfold method at hu
      repeat' split at hu
      all_goals cases hu
    rcases Reply.bind_eq_ub.1 hu with hu | ⟨m2, -, hu⟩
    · exact uriToCoap_ne_ub _ _ _ (coded_eq_ub.1 hu)
    rcases Reply.bind_eq_ub.1 hu with hu | ⟨m3, -, hu⟩
    · exact headersToCoap_ne_ub hu
    · unfold bodyToCoap at hu
      repeat' split at hu
      all_goals cases hu
  · intro e c hf
    have key : c ∈ [400, 406, 501, 502] := by
      unfold reqToCoap at hf
      rcases Reply.bind_eq_fail.1 hf with hf | ⟨m1, -, hf⟩
      · unfold method at hf
        repeat' split at hf
        all_goals cases hf
        simp
      rcases Reply.bind_eq_fail.1 hf with hf | ⟨m2, -, hf⟩
      · rw [← (coded_eq_fail.1 hf).2]; simp
      rcases Reply.bind_eq_fail.1 hf with hf | ⟨m3, -, hf⟩
      · rcases headersToCoap_fail hf with rfl | rfl <;> simp
      · unfold bodyToCoap at hf
        repeat' split at hf
        all_goals cases hf
        all_goals simp
    exact ⟨key, (by decide +kernel : ∀ c ∈ [400, 406, 501, 502], respText c ≠ str "(Unknown)") c key⟩

/-- When there is memory, a request is refused only for its method, its URI, an Accept header that is not for plain text, or a body without
room. -/
theorem C58_accepted {env : Env} {space : Nat} {h : HMsg} (he : env.Ample) (hm : ∃ d, (h.start0, d) ∈ methods)
    (hu : ∀ m, ∃ m', uriToCoap env m h.start1 = .ok m')
    (ha : ∀ v ∈ headerValues "Accept" h.headers, (v.take 10).map toLower = str "text/plain")
    (hb : (bodyOf h).length ≤ max 1024 space) : ∃ m blocks, reqToCoap env space h = .ok (m, blocks) := by
  obtain ⟨m1, e1⟩ : ∃ m1, method Msg.create h = .ok m1 := by
    obtain ⟨d, hd⟩ := hm
    simp only [methods, List.mem_cons, Prod.mk.injEq, List.not_mem_nil, or_false] at hd
    unfold method
    rcases hd with ⟨e, -⟩ | ⟨e, -⟩ | ⟨e, -⟩ | ⟨e, -⟩
    all_goals rw [e]
    · exact ⟨_, if_pos rfl⟩
    · exact ⟨_, by rw [if_neg (by decide), if_pos rfl]⟩
    · exact ⟨_, by rw [if_neg (by decide), if_neg (by decide), if_pos rfl]⟩
    · exact ⟨_, by rw [if_neg (by decide), if_neg (by decide), if_neg (by decide), if_pos rfl]⟩
  obtain ⟨m2, e2⟩ := hu m1
  have kh : ∀ (hs : List Header) (m : Msg), (∀ v ∈ headerValues "Accept" hs, (v.take 10).map toLower = str "text/plain") →
      ∃ m', headersToCoap env m hs = .ok m' := by
    intro hs
    induction hs with
    | nil => intro m _; exact ⟨m, rfl⟩
    | cons x hs ih =>
      intro m ha
      have hx : ∃ m', headerToCoap env m x = .ok m' := by
        unfold headerToCoap
        split
        · obtain ⟨m', e⟩ := addOp_ok (env := env) he.2.2.1 m 4 x.value
          exact ⟨m', by rw [e]; rfl⟩
        split
        · split
          · exact ⟨m, rfl⟩
          · rename_i n _
            obtain ⟨m', e⟩ := addOp_ok (env := env) he.2.2.1 m 14 (digits 9 n)
            exact ⟨m', by rw [e]; rfl⟩
        split
        · rename_i hn
          have hn := (Http.sameText_iff x "Accept").1 hn
          have := ha x.value (by rw [headerValues_cons_pos hn]; simp)
          have e : (str "text/plain").map toLower = str "text/plain" := by decide
          rw [if_pos (by unfold Http.sameText; rw [this, e]; exact beq_self_eq_true _)]
          obtain ⟨m', e⟩ := addOp_ok (env := env) he.2.2.1 m 17 (str "0")
          exact ⟨m', by rw [e]; rfl⟩
        · exact ⟨m, rfl⟩
      obtain ⟨m', e⟩ := hx
      unfold headersToCoap
      rw [e]
      refine ih m' (fun v hv => ha v ?_)
      by_cases hn : Http.Named x "Accept"
      · rw [headerValues_cons_pos hn]; exact List.mem_cons_of_mem _ hv
      · rw [headerValues_cons_neg hn]; exact hv
  obtain ⟨m3, e3⟩ := kh h.headers m2 ha
  have hb' : ∃ r, bodyToCoap env space m3 (bodyOf h) = .ok r := by
    unfold bodyToCoap
    split
    · rw [if_neg (by omega)]; exact ⟨_, rfl⟩
    · rw [if_neg (by rw [he.2.2.2]; simp)]; exact ⟨_, rfl⟩
  obtain ⟨⟨m, blocks⟩, e4⟩ := hb'
  refine ⟨m, blocks, ?_⟩
  unfold reqToCoap
  rw [e1]
  unfold Reply.bind
  dsimp only
  rw [e2]
  unfold coded
  dsimp only
  rw [e3]
  exact e4

/-- A POST request with headers and a body. -/
def exReq : HMsg := ⟨str "POST", str "coap://h/a?x", str "HTTP/1.1", [⟨str "etag", str "abc"⟩, ⟨str "Accept", str "text/plain"⟩,
  ⟨str "Cache-Control", str "max-age=60"⟩, ⟨str "Host", str "h"⟩], some (str "body")⟩

/-- The hypotheses are met. -/
example : (∀ x ∈ exReq.headers, x.value.length < 2 ^ 32) ∧ reqToCoap ample 8192 exReq = .ok
    ({ Msg.create with codeDetail := 2, ops := [⟨3, str "h"⟩, ⟨4, str "abc"⟩, ⟨11, str "a"⟩, ⟨14, str "60"⟩, ⟨15, str "x"⟩, ⟨17, str "0"⟩],
                       payload := str "body" }, none) := by
  refine ⟨by decide +kernel, by decide +kernel⟩

/-- A request that is refused. -/
example : reqToCoap ample 8192 { exReq with start0 := str "PATCH" } = .fail .EBADMSG 501 := by decide +kernel

end FreeCoAP.Cross
