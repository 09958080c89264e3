import Verif.Cross.Props3

/-!
# C59, C60, C61: responses
-/

namespace FreeCoAP.Cross

open FreeCoAP.Msg (Msg Op Sorted)
open FreeCoAP.Http (HMsg Header)

/-! ## Lemmas -/

theorem setHeader_ok {env : Env} {h h' : HMsg} {n v : Bytes} (e : setHeader env h n v = .ok h') :
    h' = { h with headers := h.headers ++ [⟨n, v⟩] } := by
  unfold setHeader Http.addHeader at e
  obtain ⟨x, e1, e2⟩ := Out.bind_eq_ok.1 e
  split at e1
  · cases e1; cases e2; rfl
  · cases e1

theorem setBody_ok {env : Env} {h h' : HMsg} {buf : Bytes} {len : Nat} (e : setBody env h buf len = .ok h') :
    len ≤ buf.length ∧ h' = { h with body := some (buf.take len) } := by
  unfold setBody at e
  split at e
  · cases e
  · split at e
    · rename_i hl
      cases e; exact ⟨hl, rfl⟩
    · cases e

theorem bodyToHttp_ok {env : Env} {h h' : HMsg} {buf : Bytes} {len : Nat} (e : bodyToHttp env h buf len = .ok h') :
    len ≤ buf.length ∧
    h' = { h with body := some (buf.take len), headers := h.headers ++ [⟨str "Content-Length", digits 19 len⟩] } := by
  unfold bodyToHttp at e
  obtain ⟨h1, e1, e2⟩ := Out.bind_eq_ok.1 e
  obtain ⟨hl, rfl⟩ := setBody_ok e1
  exact ⟨hl, setHeader_ok e2⟩

/-- The headers that the options of a response become. -/
inductive OpHeader : Op → List Header → Prop where
  | etag {o : Op} : o.num = 4 → OpHeader o [⟨str "Etag", cstr o.val⟩]
  | age {o : Op} (n : Nat) : o.num = 14 → n < 2 ^ 32 → OpHeader o [⟨str "Cache-Control", str "max-age=" ++ digits 9 n⟩]
  | accept {o : Op} : o.num = 17 → OpHeader o [⟨str "Accept", str "text/plain"⟩]
  | none {o : Op} : o.num ≠ 4 → OpHeader o []

theorem scanUnsigned_lt {s : Bytes} {n : Nat} (h : scanUnsigned s = some n) : n < 2 ^ 32 := by
  unfold scanUnsigned at h
  split at h
  split at h
  · cases h
  · split at h
    · cases h
    · dsimp only at h
      split at h
      · cases h
        split <;> exact Nat.mod_lt _ (by decide)
      · cases h
        decide

theorem opToHttp_ok {env : Env} {h h' : HMsg} {o : Op} (e : opToHttp env h o = .ok h') :
    ∃ hs, OpHeader o hs ∧ h' = { h with headers := h.headers ++ hs } ∧ o.val.length < TMP := by
  unfold opToHttp at e
  split at e
  · cases e
  · rename_i hl
    have hl : o.val.length < TMP := by omega
    obtain ⟨s, es, e⟩ := Out.bind_eq_ok.1 e
    have hs := (toTmp_length es).1
    rw [List.nil_append] at hs
    subst hs
    split at e
    · rename_i hn
      exact ⟨_, .etag hn, setHeader_ok e, hl⟩
    · rename_i h4
      split at e
      · rename_i hn
        split at e
        · cases e; exact ⟨[], .none h4, by simp, hl⟩
        · rename_i n hsc
          exact ⟨_, .age n hn (scanUnsigned_lt hsc), setHeader_ok e, hl⟩
      · split at e
        · rename_i hn
          split at e
          · exact ⟨_, .accept hn, setHeader_ok e, hl⟩
          · cases e; exact ⟨[], .none h4, by simp, hl⟩
        · cases e; exact ⟨[], .none h4, by simp, hl⟩

theorem opsToHttp_ok {env : Env} : ∀ {ops : List Op} {h h' : HMsg}, opsToHttp env h ops = .ok h' →
    ∃ hs, h' = { h with headers := h.headers ++ hs } ∧
      hs.filter (fun x => Http.Named x "Etag") = (ops.filter (fun o => o.num = 4)).map (fun o => ⟨str "Etag", cstr o.val⟩) ∧
      (∀ x ∈ hs, ∃ o ∈ ops, ∃ l, OpHeader o l ∧ x ∈ l)
  | [], h, h', e => by
    cases e
    exact ⟨[], by simp, rfl, by simp⟩
  | o :: ops, h, h', e => by
    unfold opsToHttp at e
    obtain ⟨h1, e1, e2⟩ := Out.bind_eq_ok.1 e
    obtain ⟨l, hl, rfl, -⟩ := opToHttp_ok e1
    obtain ⟨hs, rfl, hf, hx⟩ := opsToHttp_ok e2
    refine ⟨l ++ hs, by simp only [List.append_assoc], ?_, ?_⟩
    · rw [List.filter_append, hf]
      cases hl with
      | etag hn =>
        rw [List.filter_cons_of_pos (l := ops) (by simpa using hn), List.map_cons,
          List.filter_cons_of_pos (by simp [Http.Named])]
        rfl
      | age n hn =>
        rw [List.filter_cons_of_neg (l := ops) (by rw [hn]; decide)]
        have : ¬ Http.Named ⟨str "Cache-Control", str "max-age=" ++ digits 9 n⟩ "Etag" := by
          unfold Http.Named; dsimp only; decide +kernel
        rw [List.filter_cons_of_neg (by simpa using this)]
        rfl
      | accept hn =>
        rw [List.filter_cons_of_neg (l := ops) (by rw [hn]; decide)]
        rfl
      | none hn =>
        rw [List.filter_cons_of_neg (l := ops) (by simpa using hn)]
        rfl
    · intro x h
      rcases List.mem_append.1 h with h | h
      · exact ⟨o, by simp, l, hl, h⟩
      · obtain ⟨o', h1, h2⟩ := hx x h
        exact ⟨o', List.mem_cons_of_mem _ h1, h2⟩

/-! ## C59 -/

/-- What is known of the HTTP response for a CoAP response whose content in blocks is `blocks`. -/
structure ResponseFor (m : Msg) (blocks : Bytes) (h : HMsg) : Prop where
  version : h.start0 = str "HTTP/1.1"
  status : (m.codeClass = 2 → m.codeDetail ∉ fallThrough) → SameKind m.codeClass h.start1
  body : bodyOf h = contentOf blocks m
  length : contentOf blocks m ≠ [] → (contentOf blocks m).length < 10 ^ 20 → Http.SaysLength h.headers (contentOf blocks m).length
  etag : headerValues "Etag" h.headers = (values 4 m).map cstr

theorem respToHttp_ok {env : Env} {m : Msg} {buf : Bytes} {len : Nat} {h : HMsg} (e : respToHttp env m buf len = .ok h) :
    ∃ code reason hs, statusLine m.codeClass m.codeDetail = some (code, reason) ∧
      hs.filter (fun x => Http.Named x "Etag") = (m.ops.filter (fun o => o.num = 4)).map (fun o => ⟨str "Etag", cstr o.val⟩) ∧
      (∀ x ∈ hs, ∃ o ∈ m.ops, ∃ l, OpHeader o l ∧ x ∈ l) ∧ len ≤ max len buf.length ∧ (0 < len → len ≤ buf.length) ∧
      h = if contentOf (buf.take len) m = [] then ⟨str "HTTP/1.1", str code, str reason, hs, none⟩
        else ⟨str "HTTP/1.1", str code, str reason, hs ++ [⟨str "Content-Length", digits 19 (contentOf (buf.take len) m).length⟩],
          some (contentOf (buf.take len) m)⟩ := by
  unfold respToHttp at e
  obtain ⟨h1, e1, e'⟩ := Out.bind_eq_ok.1 (coded_eq_ok.1 e)
  clear e
  obtain ⟨h2, e2, e⟩ := Out.bind_eq_ok.1 e'
  clear e'
  unfold status at e1
  split at e1
  · rename_i code reason hl
    have e1 := setStart_ok e1
    subst e1
    obtain ⟨hs, rfl, hf, hx⟩ := opsToHttp_ok e2
    refine ⟨code, reason, hs, hl, hf, hx, by omega, ?_, ?_⟩
    · intro hp
      rw [if_pos hp] at e
      exact (bodyToHttp_ok e).1
    · split at e
      · rename_i hp
        obtain ⟨hle, rfl⟩ := bodyToHttp_ok e
        have hne : buf.take len ≠ [] := by
          intro h
          have := congrArg List.length h
          rw [List.length_take, Nat.min_eq_left hle] at this
          simp at this; omega
        have hc : contentOf (buf.take len) m = buf.take len := by unfold contentOf; rw [if_neg hne]
        rw [hc, if_neg hne]
        have : (buf.take len).length = len := by rw [List.length_take, Nat.min_eq_left hle]
        rw [this]
        rfl
      · rename_i hp
        have h0 : len = 0 := by omega
        subst h0
        have hc : contentOf (buf.take 0) m = m.payload := by unfold contentOf; rw [if_pos (by simp)]
        rw [hc]
        split at e
        · rename_i hpl
          obtain ⟨-, rfl⟩ := bodyToHttp_ok e
          rw [if_neg (List.length_pos_iff.1 hpl), List.take_of_length_le (Nat.le_refl _)]
          rfl
        · rename_i hpl
          cases e
          rw [if_pos (List.length_eq_zero_iff.1 (by omega))]
          rfl
  · cases e1

theorem headerValues_append (n : String) (a b : List Header) : headerValues n (a ++ b) = headerValues n a ++ headerValues n b := by
  unfold headerValues; rw [List.filter_append, List.map_append]

theorem etags_of {hs : List Header} {m : Msg}
    (hf : hs.filter (fun x => Http.Named x "Etag") = (m.ops.filter (fun o => o.num = 4)).map (fun o => ⟨str "Etag", cstr o.val⟩)) :
    headerValues "Etag" hs = (values 4 m).map cstr := by
  unfold headerValues values
  rw [hf, List.map_map, List.map_map]
  rfl

theorem saysLength_last {hs : List Header} {n : Nat} (hn : n < 10 ^ 20) :
    Http.SaysLength (hs ++ [⟨str "Content-Length", digits 19 n⟩]) n :=
  ⟨hs, ⟨str "Content-Length", digits 19 n⟩, [], rfl, rfl, by simp, digits_ne_nil _ _, digits_digit _ _, ofDecimal_digits 19 n hn⟩

/-- The HTTP response has the status, the entity tags and the content of the CoAP response, and tells the length of the content. -/
theorem C59_response {env : Env} {m : Msg} {buf : Bytes} {len : Nat} {h : HMsg} (e : respToHttp env m buf len = .ok h) :
    ResponseFor m (buf.take len) h := by
  obtain ⟨code, reason, hs, hst, hf, -, -, -, rfl⟩ := respToHttp_ok e
  by_cases hc : contentOf (buf.take len) m = []
  · rw [if_pos hc]
    exact ⟨rfl, fun hfl => statusLine_kind hst hfl, hc.symm, fun h => absurd hc h, etags_of hf⟩
  · rw [if_neg hc]
    refine ⟨rfl, fun hfl => statusLine_kind hst hfl, rfl, fun _ h => saysLength_last h, ?_⟩
    dsimp only
    rw [headerValues_append, etags_of hf]
    have : headerValues "Etag" [⟨str "Content-Length", digits 19 (contentOf (buf.take len) m).length⟩] = [] := by
      rw [headerValues_cons_neg]
      · rfl
      · unfold Http.Named; dsimp only; decide +kernel
    rw [this, List.append_nil]

/-- Converting a response has a defined outcome if the content in blocks is there. Its error code is 502. -/
theorem C59_total (env : Env) (m : Msg) {buf : Bytes} {len : Nat} (hl : len ≤ buf.length) :
    respToHttp env m buf len ≠ .ub ∧ ∀ e c, respToHttp env m buf len = .fail e c → c = 502 := by
  have hsh : ∀ h n v, setHeader env h n v ≠ .ub := by
    intro h n v
    refine bind_ne_ub ?_ (fun _ _ => pure_ne_ub _)
    unfold Http.addHeader; split <;> simp
  have hbo : ∀ h b n, n ≤ b.length → bodyToHttp env h b n ≠ .ub := by
    intro h b n hn
    refine bind_ne_ub ?_ (fun _ _ => hsh _ _ _)
    unfold setBody
    split
    · simp
    · first | (rw [if_pos hn]; simp) | simp
  have hop : ∀ h o, opToHttp env h o ≠ .ub := by
    intro h o
    unfold opToHttp
    split
    · simp
    · refine bind_ne_ub (toTmp_ne_ub (by simp only [List.length_nil]; omega)) (fun s _ => ?_)
      split
      · exact hsh _ _ _
      split
      · split
        · exact pure_ne_ub _
        · exact hsh _ _ _
      split
      · split
        · exact hsh _ _ _
        · exact pure_ne_ub _
      · exact pure_ne_ub _
  have hops : ∀ ops h, opsToHttp env h ops ≠ .ub := by
    intro ops
    induction ops with
    | nil => intro h; exact pure_ne_ub _
    | cons o ops ih => intro h; exact bind_ne_ub (hop _ _) (fun _ _ => ih _)
  constructor
  · intro h
    have h := coded_eq_ub.1 h
    revert h
    refine bind_ne_ub ?_ (fun h1 _ => bind_ne_ub (hops _ _) (fun h2 _ => ?_))
    · have hd : ∀ s, strdup env s ≠ .ub := by intro s; unfold strdup; split <;> simp
      unfold status
      split
      · exact bind_ne_ub (hd _) (fun _ _ => bind_ne_ub (hd _) (fun _ _ => bind_ne_ub (hd _) (fun _ _ => pure_ne_ub _)))
      · simp
    · split
      · exact hbo _ _ _ hl
      · split
        · exact hbo _ _ _ (Nat.le_refl _)
        · exact pure_ne_ub _
  · intro e c h
    exact (coded_eq_fail.1 h).2.symm

/-- C59 in full: if a response is converted and its text sent, a reader of HTTP finds the message that was converted: no more headers, no
other body. -/
def C59_statement : Prop :=
  ∀ (env : Env) (m : Msg) (buf : Bytes) (len : Nat) (h : HMsg) (out : Bytes) (n : Nat), env.Ample → len ≤ buf.length →
    (contentOf (buf.take len) m).length < 2 ^ 31 → respToHttp env m buf len = .ok h → n ≤ out.length → (Http.text h).length < n →
    ∃ b, Http.generate h out n = .ok (b, (Http.text h).length) ∧ Http.parse env.http (b.take (Http.text h).length) = .ok (h, (Http.text h).length)

theorem digits_tidy (f n : Nat) : Http.Tidy (digits f n) ∧ (0 : Byte) ∉ digits f n := by
  have key := forall_byte (P := fun c => isDigit c = true → isSpace c = false ∧ c ≠ 0) (by decide +kernel)
  refine ⟨Http.tidy_of (List.all_eq_true.2 (fun c hc => ?_)), fun h => ?_⟩
  · rw [(key c (digits_digit f n c hc)).1]; rfl
  · exact (key 0 (digits_digit f n 0 h)).2 rfl

theorem age_tidy (n : Nat) : Http.Tidy (str "max-age=" ++ digits 9 n) ∧ (0 : Byte) ∉ str "max-age=" ++ digits 9 n := by
  have key := forall_byte (P := fun c => isDigit c = true → isSpace c = false ∧ c ≠ 0) (by decide +kernel)
  refine ⟨Http.tidy_of (List.all_eq_true.2 (fun c hc => ?_)), fun h => ?_⟩
  · rcases List.mem_append.1 hc with hc | hc
    · exact (by decide +kernel : ∀ c ∈ str "max-age=", (!isSpace c) = true) c hc
    · rw [(key c (digits_digit 9 n c hc)).1]; rfl
  · rcases List.mem_append.1 h with h | h
    · exact absurd h (by decide)
    · exact (key 0 (digits_digit 9 n 0 h)).2 rfl

theorem statusLine_fields {cls detail : Nat} {code reason : String} (h : statusLine cls detail = some (code, reason)) :
    (str code ≠ [] ∧ 0x20 ∉ str code ∧ 0x0D ∉ str code ∧ 0x00 ∉ str code) ∧
    (str reason ≠ [] ∧ 0x0D ∉ str reason ∧ 0x00 ∉ str reason) := by
  have s1 : ∀ d code reason, statusSuccess d = some (code, reason) →
      (str code ≠ [] ∧ 0x20 ∉ str code ∧ 0x0D ∉ str code ∧ 0x00 ∉ str code) ∧
      (str reason ≠ [] ∧ 0x0D ∉ str reason ∧ 0x00 ∉ str reason) := by
    intro d code reason h
    unfold statusSuccess at h
    split at h <;> cases h <;> decide +kernel
  have s2 : ∀ d code reason, statusClient d = some (code, reason) →
      (str code ≠ [] ∧ 0x20 ∉ str code ∧ 0x0D ∉ str code ∧ 0x00 ∉ str code) ∧
      (str reason ≠ [] ∧ 0x0D ∉ str reason ∧ 0x00 ∉ str reason) := by
    intro d code reason h
    unfold statusClient at h
    split at h <;> cases h <;> decide +kernel
  have s3 : ∀ d code reason, statusServer d = some (code, reason) →
      (str code ≠ [] ∧ 0x20 ∉ str code ∧ 0x0D ∉ str code ∧ 0x00 ∉ str code) ∧
      (str reason ≠ [] ∧ 0x0D ∉ str reason ∧ 0x00 ∉ str reason) := by
    intro d code reason h
    unfold statusServer at h
    split at h <;> cases h <;> decide +kernel
  have orElse : ∀ {a b : Option (String × String)} {x}, (a.orElse fun _ => b) = some x → a = some x ∨ b = some x := by
    intro a b x h
    cases a with
    | none => exact Or.inr h
    | some y => exact Or.inl h
  unfold statusLine at h
  split at h
  · rcases orElse h with h | h
    · exact s1 _ _ _ h
    · rcases orElse h with h | h
      · exact s2 _ _ _ h
      · exact s3 _ _ _ h
  split at h
  · rcases orElse h with h | h
    · exact s2 _ _ _ h
    · exact s3 _ _ _ h
  split at h
  · exact s3 _ _ _ h
  · cases h

/-- C59 if the entity tags are printable text as HTTP has it and the content has no NUL. -/
theorem C59_text_partial {env : Env} {m : Msg} {buf : Bytes} {len : Nat} {h : HMsg} {out : Bytes} {n : Nat} (he : env.Ample)
    (hc : (contentOf (buf.take len) m).length < 2 ^ 31) (e : respToHttp env m buf len = .ok h)
    (ht : ∀ v ∈ values 4 m, Http.Tidy (cstr v)) (h0 : 0x00 ∉ contentOf (buf.take len) m) (hn : n ≤ out.length)
    (hfit : (Http.text h).length < n) (more : Bytes) :
    ∃ b, Http.generate h out n = .ok (b, (Http.text h).length) ∧ b.take (Http.text h).length = Http.text h ∧
      Http.parse env.http (b.take (Http.text h).length ++ more) = .ok (h, (Http.text h).length) := by
  obtain ⟨code, reason, hs, hst, hf, hx, -, -, rfl⟩ := respToHttp_ok e
  have hfields := statusLine_fields hst
  have hh : ∀ x ∈ hs, (Http.Tidy x.name ∧ 0x3A ∉ x.name ∧ 0x00 ∉ x.name) ∧ (Http.Tidy x.value ∧ 0x00 ∉ x.value) ∧
      ¬ Http.Named x "Transfer-Encoding" ∧ ¬ Http.Named x "Content-Length" := by
    intro x hxm
    obtain ⟨o, ho, l, hl, hxl⟩ := hx x hxm
    cases hl with
    | etag hk =>
      simp only [List.mem_singleton] at hxl
      subst hxl
      refine ⟨⟨Http.tidy_of (by dsimp only; decide +kernel), by dsimp only; decide +kernel, by dsimp only; decide +kernel⟩,
        ⟨ht o.val ?_, cstr_no_nul _⟩, ?_, ?_⟩
      · unfold values
        exact List.mem_map.2 ⟨o, List.mem_filter.2 ⟨ho, by simpa using hk⟩, rfl⟩
      · unfold Http.Named; dsimp only; decide +kernel
      · unfold Http.Named; dsimp only; decide +kernel
    | age k =>
      simp only [List.mem_singleton] at hxl
      subst hxl
      refine ⟨⟨Http.tidy_of (by dsimp only; decide +kernel), by dsimp only; decide +kernel, by dsimp only; decide +kernel⟩, age_tidy k, ?_, ?_⟩
      · unfold Http.Named; dsimp only; decide +kernel
      · unfold Http.Named; dsimp only; decide +kernel
    | accept =>
      simp only [List.mem_singleton] at hxl
      subst hxl
      refine ⟨⟨Http.tidy_of (by decide +kernel), by decide +kernel, by decide +kernel⟩, ⟨Http.tidy_of (by decide +kernel), by decide +kernel⟩, ?_, ?_⟩
      · unfold Http.Named; dsimp only; decide +kernel
      · unfold Http.Named; dsimp only; decide +kernel
    | none => cases hxl
  have hversion : str "HTTP/1.1" ≠ [] ∧ 0x20 ∉ str "HTTP/1.1" ∧ 0x0D ∉ str "HTTP/1.1" ∧ 0x00 ∉ str "HTTP/1.1" := by decide +kernel
  refine Http.C42_roundtrip_partial he.2.1 ?_ ?_ hn hfit more
  · by_cases hcn : contentOf (buf.take len) m = []
    · rw [if_pos hcn]
      refine ⟨hversion, hfields.1, hfields.2, fun x h => (hh x h).1, fun x h => (hh x h).2.1, ?_, Or.inl fun x h => (hh x h).2.2.2⟩
      rintro ⟨x, h1, h2, -⟩
      exact (hh x h1).2.2.1 h2
    · rw [if_neg hcn]
      refine ⟨hversion, hfields.1, hfields.2, ?_, ?_, ?_, hcn, hc, saysLength_last (by omega)⟩
      · intro x h
        rcases List.mem_append.1 h with h | h
        · exact (hh x h).1
        · simp only [List.mem_singleton] at h
          subst h
          exact ⟨Http.tidy_of (by dsimp only; decide +kernel), by dsimp only; decide +kernel, by dsimp only; decide +kernel⟩
      · intro x h
        rcases List.mem_append.1 h with h | h
        · exact (hh x h).2.1
        · simp only [List.mem_singleton] at h
          subst h
          exact digits_tidy _ _
      · rintro ⟨x, h1, h2, -⟩
        rcases List.mem_append.1 h1 with h | h
        · exact (hh x h).2.2.1 h2
        · simp only [List.mem_singleton] at h
          subst h
          exact absurd h2 (by unfold Http.Named; dsimp only; decide +kernel)
  · intro b hb
    by_cases hcn : contentOf (buf.take len) m = []
    · rw [if_pos hcn] at hb; cases hb
    · rw [if_neg hcn] at hb; cases hb; exact h0

/-- A response 2.05 with an entity tag, Max-Age and a payload. -/
def exResp : Msg := { Msg.create with codeClass := 2, codeDetail := 5, ops := [⟨4, str "abc"⟩, ⟨14, str "60"⟩], payload := str "hello" }

/-- The hypotheses are met. -/
example : respToHttp ample exResp [] 0 = .ok ⟨str "HTTP/1.1", str "200", str "OK",
      [⟨str "Etag", str "abc"⟩, ⟨str "Cache-Control", str "max-age=60"⟩, ⟨str "Content-Length", str "5"⟩], some (str "hello")⟩ ∧
    (∀ v ∈ values 4 exResp, Http.Tidy (cstr v)) ∧ 0x00 ∉ contentOf ([].take 0) exResp := by
  refine ⟨by decide +kernel, ?_, by decide +kernel⟩
  have e : values 4 exResp = [str "abc"] := by decide +kernel
  rw [e]
  intro v hv
  simp only [List.mem_singleton] at hv
  subst hv
  exact Http.tidy_of (by decide +kernel)

/-- A response with the entity tag `a\r\nX:y`, of six bytes. -/
def inject : Msg := { Msg.create with codeClass := 2, codeDetail := 5, ops := [⟨4, str "a\r\nX:y"⟩], payload := str "hello" }

/-- The HTTP message with the header of the attacker. -/
def injected : HMsg := ⟨str "HTTP/1.1", str "200", str "OK", [⟨str "Etag", str "a"⟩, ⟨str "X", str "y"⟩, ⟨str "Content-Length", str "5"⟩], some (str "hello")⟩

/-- C59 fails: the bytes of an entity tag go into the header unchanged, so that a CoAP server can add headers to the response. -/
theorem C59_violated : ¬ C59_statement := by
  intro h
  have e : respToHttp ample inject [] 0 = .ok ⟨str "HTTP/1.1", str "200", str "OK",
      [⟨str "Etag", str "a\r\nX:y"⟩, ⟨str "Content-Length", str "5"⟩], some (str "hello")⟩ := by decide +kernel
  obtain ⟨b, e1, e2⟩ := h ample inject [] 0 _ (List.replicate 100 0) 100 ample_ample (by decide) (by decide +kernel) e (by decide)
    (by decide +kernel)
  have e3 : (Http.generate ⟨str "HTTP/1.1", str "200", str "OK",
      [⟨str "Etag", str "a\r\nX:y"⟩, ⟨str "Content-Length", str "5"⟩], some (str "hello")⟩ (List.replicate 100 0) 100 >>=
        fun p => Http.parse ample.http (p.1.take p.2)) = .ok (injected, 57) := by decide +kernel
  rw [e1, Out.bind_ok] at e3
  dsimp only at e3
  rw [e2] at e3
  injection e3 with e3
  have := congrArg (fun p => p.1.headers.length) e3
  exact absurd this (by decide +kernel)

/-! ## C60 -/

/-- C60 in full: numbers keep their value: Max-Age, an unsigned integer (RFC 7252, 5.10.5), becomes the same number in the response. -/
def C60_statement : Prop :=
  ∀ (env : Env) (h h' : HMsg) (v : Bytes), v.length ≤ 4 → opToHttp env h ⟨14, v⟩ = .ok h' →
    ∃ t, h'.headers = h.headers ++ [⟨str "Cache-Control", str "max-age=" ++ t⟩] ∧ Http.ofDecimal t = uintValue v

/-- C60 fails: the option is read as decimal digits. A maximum age of 53 seconds (one byte, the digit 5) becomes 5, and one of 60 seconds
is dropped. -/
theorem C60_violated : ¬ C60_statement := by
  intro h
  have e : opToHttp ample emptyHttp ⟨14, [53]⟩ = .ok { emptyHttp with headers := [⟨str "Cache-Control", str "max-age=5"⟩] } := by decide +kernel
  obtain ⟨t, e1, e2⟩ := h ample emptyHttp _ [53] (by decide) e
  have e3 : str "max-age=" ++ t = str "max-age=" ++ str "5" := by
    dsimp only [emptyHttp] at e1
    injection e1 with e1
    injection e1 with _ e1
    exact e1.symm.trans (by decide +kernel)
  have e4 := List.append_cancel_left e3
  subst e4
  exact absurd e2 (by decide +kernel)

/-- The second witness of C60: 60 seconds. -/
theorem C60_violated_lost : opToHttp ample emptyHttp ⟨14, [60]⟩ = .ok emptyHttp := by decide +kernel

/-- In requests: plain text is format 0 (RFC 7252, 12.3), but the option has the value 48; and port 5683 becomes a number of four bytes. -/
theorem C60_violated_request :
    (headerToCoap ample Msg.create ⟨str "Accept", str "text/plain"⟩ = .ok { Msg.create with ops := [⟨17, [48]⟩] } ∧ uintValue [48] = 48) ∧
    (uriToCoap ample Msg.create (str "coap://h:5683/") = .ok { Msg.create with ops := [⟨3, str "h"⟩, ⟨7, [0x35, 0x36, 0x38, 0x33]⟩] } ∧
      uintValue [0x35, 0x36, 0x38, 0x33] ≠ 5683) :=
  ⟨⟨by decide +kernel, by decide⟩, by decide +kernel, by decide⟩

theorem scanUnsigned_digits {n : Nat} (hn : n < 2 ^ 32) : scanUnsigned (digits 9 n) = some n := by
  have hd := digits_digit 9 n
  have hv := ofDecimal_digits 9 n (by omega)
  cases hds : digits 9 n with
  | nil => exact absurd hds (digits_ne_nil 9 n)
  | cons c s =>
    rw [hds] at hd hv
    have hc := Http.isDigit_facts c (hd c (by simp))
    unfold scanUnsigned
    rw [List.dropWhile_cons_of_neg (by rw [hc.1]; decide)]
    have e1 : Http.sign (c :: s) = (false, c :: s) := by unfold Http.sign; dsimp only; rw [if_neg hc.2.1, if_neg hc.2.2]
    rw [e1]
    dsimp only
    rw [if_neg (by rw [hd c (by simp)]; decide), Http.decimal_digits 0 hd]
    unfold Http.ofDecimal at hv
    rw [hv, if_pos (by omega)]
    simp only [Bool.false_eq_true, if_false]
    rw [Nat.mod_eq_of_lt hn]

/-- What holds instead of C60: numbers are written with decimal digits on both sides, so that a maximum age from an HTTP request comes back as
the same number from a server that returns the option. -/
theorem C60_decimal_partial {env : Env} (he : env.Ample) {m : Msg} (hs : Sorted m.ops) (g : HMsg) {n : Nat} (hn : n < 2 ^ 32) :
    ∃ m' v g', headerToCoap env m ⟨str "Cache-Control", str "max-age=" ++ digits 9 n⟩ = .ok m' ∧
      values 14 m' = values 14 m ++ [v] ∧ (∀ c ∈ v, isDigit c = true) ∧ Http.ofDecimal v = n ∧
      opToHttp env g ⟨14, v⟩ = .ok g' ∧ g'.headers = g.headers ++ [⟨str "Cache-Control", str "max-age=" ++ digits 9 n⟩] := by
  have e1 : maxAge (str "max-age=" ++ digits 9 n) = some n := by
    have ef : find (str "max-age=") (str "max-age=" ++ digits 9 n) = some (str "max-age=" ++ digits 9 n) := by
      have hp : (str "max-age=").isPrefixOf (str "max-age=" ++ digits 9 n) = true := List.isPrefixOf_iff_prefix.2 (List.prefix_append _ _)
      obtain ⟨c, s, hcs⟩ : ∃ c s, str "max-age=" ++ digits 9 n = c :: s := ⟨0x6D, str "ax-age=" ++ digits 9 n, by
        have : str "max-age=" = 0x6D :: str "ax-age=" := by decide +kernel
        rw [this]; rfl⟩
      rw [hcs] at hp ⊢
      unfold find
      rw [if_pos hp]
    unfold maxAge
    rw [ef]
    dsimp only
    rw [List.drop_left]
    exact scanUnsigned_digits hn
  obtain ⟨m', e2⟩ := addOp_ok (env := env) he.2.2.1 m 14 (digits 9 n)
  have hlen := digits_length 9 n
  have k := addOp_added hs (by omega) e2
  refine ⟨m', digits 9 n, { g with headers := g.headers ++ [⟨str "Cache-Control", str "max-age=" ++ digits 9 n⟩] }, ?_, ?_, digits_digit _ _, ofDecimal_digits 9 n (by omega), ?_, rfl⟩
  · unfold headerToCoap
    dsimp only
    rw [if_neg (by decide +kernel), if_pos (by decide +kernel), e1]
    dsimp only
    rw [e2]
    rfl
  · rw [k.vals]; simp
  · unfold opToHttp
    dsimp only
    rw [if_neg (by unfold TMP; omega), toTmp_ok (by unfold TMP; simp only [List.length_nil]; omega), Out.bind_ok, List.nil_append,
      if_neg (by decide), if_pos rfl, cstr_of_no_nul (digits_tidy 9 n).2, scanUnsigned_digits hn]
    dsimp only
    unfold setHeader Http.addHeader
    rw [if_pos (by rw [he.2.1, he.2.1, he.2.1]; rfl)]
    rfl

/-- The hypotheses are met. -/
example : Sorted Msg.create.ops ∧ digits 9 3600 = str "3600" ∧ 3600 < 2 ^ 32 := ⟨List.Pairwise.nil, by decide +kernel, by decide⟩

/-! ## C61 -/

/-- C61 in full: the HTTP client learns where the response ends, unless the status says that there is no body (RFC 7230, 3.3.3). -/
def C61_statement : Prop :=
  ∀ (env : Env) (m : Msg) (buf : Bytes) (len : Nat) (h : HMsg), len ≤ buf.length → (contentOf (buf.take len) m).length < 2 ^ 31 →
    respToHttp env m buf len = .ok h → h.start1 ≠ str "304" → ∃ n, Http.SaysLength h.headers n

/-- C61 fails: a response without content, such as 2.04 (Changed) after a PUT, has no Content-Length. -/
theorem C61_violated : ¬ C61_statement := by
  intro h
  have e : respToHttp ample { Msg.create with codeClass := 2, codeDetail := 4 } [] 0 = .ok ⟨str "HTTP/1.1", str "200", str "OK", [], none⟩ := by
    decide +kernel
  obtain ⟨n, a, x, b, e1, -⟩ := h ample _ [] 0 _ (by decide) (by decide +kernel) e (by decide +kernel)
  cases a <;> cases e1

/-- C61 for responses with content. -/
theorem C61_length_partial {env : Env} {m : Msg} {buf : Bytes} {len : Nat} {h : HMsg} (e : respToHttp env m buf len = .ok h)
    (hc : (contentOf (buf.take len) m).length < 2 ^ 31) (hn : contentOf (buf.take len) m ≠ []) :
    Http.SaysLength h.headers (bodyOf h).length := by
  have k := C59_response e
  rw [k.body]
  exact k.length hn (by omega)

/-- The hypotheses are met by `exResp`. -/
example : contentOf ([].take 0) exResp ≠ [] := by decide +kernel

end FreeCoAP.Cross
