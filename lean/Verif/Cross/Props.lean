import Verif.Cross.LemmasUri

/-!
# C45, C46: status codes and URIs in the proxy
-/

namespace FreeCoAP.Cross

open FreeCoAP.Msg (Msg Op Sorted)
open FreeCoAP.Http (HMsg Header)

/-- An environment in which memory is there. -/
def Env.Ample (env : Env) : Prop :=
  (∀ s, env.uri s = true) ∧ (∀ n, env.http n = true) ∧ (∀ m n, env.op m n = true) ∧ (∀ n, env.payload n = true)

/-- An environment with memory, for examples. -/
def ample : Env := ⟨true, fun _ => true, fun _ => true, fun _ _ => true, fun _ => true⟩

theorem ample_ample : ample.Ample := ⟨fun _ => rfl, fun _ => rfl, fun _ _ => rfl, fun _ => rfl⟩

/-! ## C45 -/

/-- C45 in full: where a response code is converted, the HTTP status is of the same kind. -/
def C45_statement : Prop :=
  ∀ env h m h', status env h m = .ok h' → SameKind m.codeClass h'.start1

/-- The codes of successes that are converted to errors. -/
def fallThrough : List Nat := [0, 6, 12, 13, 15]

theorem setStart_ok {env : Env} {h h' : HMsg} {a b c : Bytes} (e : setStart env h a b c = .ok h') :
    h' = { h with start0 := a, start1 := b, start2 := c } := by
  have key : ∀ {s t : Bytes}, strdup env s = .ok t → t = s := by
    intro s t h
    unfold strdup at h
    split at h
    · cases h; rfl
    · cases h
  unfold setStart at e
  obtain ⟨a', e1, e⟩ := Out.bind_eq_ok.1 e
  obtain ⟨b', e2, e⟩ := Out.bind_eq_ok.1 e
  obtain ⟨c', e3, e⟩ := Out.bind_eq_ok.1 e
  cases e
  rw [key e1, key e2, key e3]

theorem statusLine_kind {cls detail : Nat} {code reason : String} (h : statusLine cls detail = some (code, reason))
    (hf : cls = 2 → detail ∉ fallThrough) : SameKind cls (str code) := by
  have s1 : ∀ d code reason, statusSuccess d = some (code, reason) → SameKind 2 (str code) := by
    intro d code reason h
    unfold statusSuccess at h
    split at h <;> cases h <;> decide
  have s2 : ∀ d code reason, statusClient d = some (code, reason) → SameKind 4 (str code) := by
    intro d code reason h
    unfold statusClient at h
    split at h <;> cases h <;> decide
  have s3 : ∀ d code reason, statusServer d = some (code, reason) → SameKind 5 (str code) := by
    intro d code reason h
    unfold statusServer at h
    split at h <;> cases h <;> decide
  have s4 : ∀ d, statusServer d ≠ none → statusClient d ≠ none := by
    intro d h
    unfold statusServer at h
    split at h <;> first | (simp [statusClient]; done) | exact absurd rfl h
  have s5 : ∀ d, statusClient d ≠ none → statusSuccess d ≠ none ∨ d ∈ fallThrough := by
    intro d h
    unfold statusClient at h
    split at h <;> first | (simp [statusSuccess, fallThrough]; done) | exact absurd rfl h
  unfold statusLine at h
  split at h
  · rename_i hc
    subst hc
    cases h1 : statusSuccess detail with
    | some p => rw [h1] at h; cases h; exact s1 _ _ _ h1
    | none =>
      exfalso
      have h2 : statusClient detail = none := by
        by_cases h2 : statusClient detail = none
        · exact h2
        · rcases s5 _ h2 with h3 | h3
          · exact absurd h1 h3
          · exact absurd h3 (hf rfl)
      have h3 : statusServer detail = none := by
        by_cases h3 : statusServer detail = none
        · exact h3
        · exact absurd h2 (s4 _ h3)
      rw [h1, h2, h3] at h
      cases h
  · split at h
    · rename_i hc
      subst hc
      cases h1 : statusClient detail with
      | some p => rw [h1] at h; cases h; exact s2 _ _ _ h1
      | none =>
        exfalso
        have h3 : statusServer detail = none := by
          by_cases h3 : statusServer detail = none
          · exact h3
          · exact absurd h1 (s4 _ h3)
        rw [h1, h3] at h
        cases h
    · split at h
      · rename_i hc
        subst hc
        exact s3 _ _ _ h
      · cases h

/-- C45 holds for all codes except 2.00, 2.06, 2.12, 2.13 and 2.15: a code that is converted gets an HTTP status of the
same kind. -/
theorem C45_kind_partial {env : Env} {h h' : HMsg} {m : Msg} (hf : m.codeClass = 2 → m.codeDetail ∉ fallThrough)
    (e : status env h m = .ok h') : SameKind m.codeClass h'.start1 := by
  unfold status at e
  split at e
  · rename_i code reason hl
    rw [setStart_ok e]
    exact statusLine_kind hl hf
  · cases e

/-- Every response code of RFC 7252 is converted, and the others are refused, apart from the five of
`C45_kind_partial`. -/
theorem C45_registered (env : Env) (he : env.Ample) (h : HMsg) (m : Msg) :
    ((m.codeClass, m.codeDetail) ∈ registered → ∃ h', status env h m = .ok h' ∧ SameKind m.codeClass h'.start1) ∧
    ((m.codeClass, m.codeDetail) ∉ registered → ¬ (m.codeClass = 2 ∧ m.codeDetail ∈ fallThrough) →
      status env h m = .err .EBADMSG) := by
  have hs : ∀ a b c, ∃ h', setStart env h a b c = .ok h' := by
    intro a b c
    refine ⟨{ h with start0 := a, start1 := b, start2 := c }, ?_⟩
    unfold setStart strdup
    rw [if_pos (he.2.1 _), if_pos (he.2.1 _), if_pos (he.2.1 _)]
    rfl
  constructor
  · intro hr
    have k1 : statusLine m.codeClass m.codeDetail ≠ none := by
      have := (by decide : ∀ p ∈ registered, statusLine p.1 p.2 ≠ none) _ hr
      exact this
    have k2 : m.codeClass = 2 → m.codeDetail ∉ fallThrough := by
      have := (by decide : ∀ p ∈ registered, p.1 = 2 → p.2 ∉ fallThrough) _ hr
      exact this
    cases hl : statusLine m.codeClass m.codeDetail with
    | none => exact absurd hl k1
    | some p =>
      obtain ⟨code, reason⟩ := p
      obtain ⟨h', e⟩ := hs (str "HTTP/1.1") (str code) (str reason)
      have e' : status env h m = .ok h' := by unfold status; rw [hl]; exact e
      exact ⟨h', e', C45_kind_partial k2 e'⟩
  · intro hr hf
    have e : statusLine m.codeClass m.codeDetail = none := by
      have key : ∀ c d, statusLine c d ≠ none → (c, d) ∈ registered ∨ (c = 2 ∧ d ∈ fallThrough) := by
        intro c d hn
        have s1 : ∀ d, statusSuccess d ≠ none → d ∈ [1, 2, 3, 4, 5] := by
          intro d h
          unfold statusSuccess at h
          split at h <;> first | (simp; done) | exact absurd rfl h
        have s2 : ∀ d, statusClient d ≠ none → d ∈ [0, 1, 2, 3, 4, 5, 6, 12, 13, 15] := by
          intro d h
          unfold statusClient at h
          split at h <;> first | (simp; done) | exact absurd rfl h
        have s3 : ∀ d, statusServer d ≠ none → d ∈ [0, 1, 2, 3, 4, 5] := by
          intro d h
          unfold statusServer at h
          split at h <;> first | (simp; done) | exact absurd rfl h
        have t2 : ∀ d ∈ [0, 1, 2, 3, 4, 5, 6, 12, 13, 15], (2, d) ∈ registered ∨ d ∈ fallThrough := by decide
        have t1 : ∀ d ∈ [1, 2, 3, 4, 5], (2, d) ∈ registered := by decide
        have t4 : ∀ d ∈ [0, 1, 2, 3, 4, 5, 6, 12, 13, 15], (4, d) ∈ registered := by decide
        have t3 : ∀ d ∈ [0, 1, 2, 3, 4, 5], d ∈ [0, 1, 2, 3, 4, 5, 6, 12, 13, 15] ∧ (5, d) ∈ registered := by decide
        unfold statusLine at hn
        split at hn
        · rename_i hc
          subst hc
          cases h1 : statusSuccess d with
          | some p => exact Or.inl (t1 d (s1 d (by rw [h1]; simp)))
          | none =>
            have : d ∈ [0, 1, 2, 3, 4, 5, 6, 12, 13, 15] := by
              cases h2 : statusClient d with
              | some p => exact s2 d (by rw [h2]; simp)
              | none =>
                rw [h1, h2] at hn
                exact (t3 d (s3 d hn)).1
            rcases t2 d this with h | h
            · exact Or.inl h
            · exact Or.inr ⟨rfl, h⟩
        · split at hn
          · rename_i hc
            subst hc
            left
            apply t4
            cases h2 : statusClient d with
            | some p => exact s2 d (by rw [h2]; simp)
            | none =>
              rw [h2] at hn
              exact (t3 d (s3 d hn)).1
          · split at hn
            · rename_i hc
              subst hc
              exact Or.inl (t3 d (s3 d hn)).2
            · exact absurd rfl hn
      by_cases hn : statusLine m.codeClass m.codeDetail = none
      · exact hn
      · rcases key _ _ hn with h | h
        · exact absurd h hr
        · exact absurd h hf
    unfold status
    rw [e]

/-- The codes of RFC 7252 become the statuses of the table. -/
theorem C45_table {env : Env} {h h' : HMsg} {m : Msg} {code : String} (ht : ((m.codeClass, m.codeDetail), code) ∈ table)
    (e : status env h m = .ok h') : h'.start0 = str "HTTP/1.1" ∧ h'.start1 = str code ∧ h'.headers = h.headers ∧ h'.body = h.body := by
  have key : ∀ p ∈ table, (statusLine p.1.1 p.1.2).map (·.1) = some p.2 := by decide +kernel
  have key := key _ ht
  unfold status at e
  split at e
  · rename_i c r hl
    simp only [hl, Option.map_some, Option.some.injEq] at key
    rw [setStart_ok e, key]
    exact ⟨rfl, rfl, rfl, rfl⟩
  · cases e

/-- The table has exactly the codes of RFC 7252. -/
theorem table_registered : table.map (·.1) = registered := by decide +kernel

/-- A response 2.06. -/
def strange : Msg := { Msg.create with codeClass := 2, codeDetail := 6 }

/-- C45 fails: a success that the table does not have is looked up among the client errors. -/
theorem C45_violated : ¬ C45_statement := by
  intro h
  have e : status ample emptyHttp strange = .ok { emptyHttp with
      start0 := str "HTTP/1.1", start1 := str "406", start2 := str "Not Acceptable" } := by decide +kernel
  have := h ample emptyHttp strange _ e
  exact absurd this (by decide)

/-- The same for each of the five codes. -/
theorem C45_violated_all : ∀ d ∈ fallThrough, ∃ code reason, statusLine 2 d = some (code, reason) ∧ SameKind 4 (str code) := by
  intro d hd
  simp only [fallThrough, List.mem_cons, List.not_mem_nil, or_false] at hd
  rcases hd with rfl | rfl | rfl | rfl | rfl
  · exact ⟨"400", "Bad Request", rfl, by decide⟩
  · exact ⟨"406", "Not Acceptable", rfl, by decide⟩
  · exact ⟨"412", "Precondition Failed", rfl, by decide⟩
  · exact ⟨"413", "Request Entity Too Large", rfl, by decide⟩
  · exact ⟨"415", "Unsupported Media Type", rfl, by decide⟩

/-- The hypotheses are met: a response 4.04. -/
example : status ample emptyHttp { Msg.create with codeClass := 4, codeDetail := 4 } =
    .ok { emptyHttp with start0 := str "HTTP/1.1", start1 := str "404", start2 := str "Not Found" } := by decide +kernel

/-! ## C46 -/

/-- C46 in full: the request URI of an HTTP request becomes the options that RFC 7252 derives from it. -/
def C46_statement : Prop :=
  ∀ (env : Env) (m : Msg) (r : CoapUri) host segs params, env.Ample → Sorted m.ops → r.WF → r.text.length < 2 ^ 32 →
    Decoded r host segs params → ∃ m', uriToCoap env m r.text = .ok m' ∧ HasOptions m m' host r.port segs params

theorem HasOptions.of_added {m m1 m2 m3 m4 : Msg} {host : Bytes} {port : Option Bytes} {segs params : List Bytes}
    (h1 : Added m m1 3 [host]) (h2 : Added m1 m2 7 port.toList) (h3 : Added m2 m3 11 (segs.filter (· ≠ [])))
    (h4 : Added m3 m4 15 (params.filter (· ≠ []))) : HasOptions m m4 host port segs params := by
  have key : ∀ k, values k m4 = values k m ++ (if 3 = k then [host] else []) ++ (if 7 = k then port.toList else []) ++
      (if 11 = k then segs.filter (· ≠ []) else []) ++ (if 15 = k then params.filter (· ≠ []) else []) := by
    intro k
    rw [h4.vals, h3.vals, h2.vals, h1.vals]
  refine ⟨?_, ?_, ?_, ?_, ?_, ?_, h4.sorted⟩
  · rw [key]; simp
  · rw [key]; simp
  · rw [key]; simp
  · rw [key]; simp
  · intro k k1 k2 k3 k4
    rw [key, if_neg (Ne.symm k1), if_neg (Ne.symm k2), if_neg (Ne.symm k3), if_neg (Ne.symm k4)]
    simp
  · rw [h4.rest, h3.rest, h2.rest, h1.rest]

theorem Decodes.length_le {t s : Bytes} (h : Decodes t s) : s.length ≤ t.length := by
  induction h with
  | nil => exact Nat.le_refl _
  | char _ _ ih => simp only [List.length_cons]; omega
  | escape _ _ _ ih => simp only [List.length_cons]; omega

theorem length_join {sep : Byte} {s : Bytes} : ∀ {ss : List Bytes}, s ∈ ss → s.length ≤ (join sep ss).length
  | [x], h => by simp only [List.mem_singleton] at h; subst h; exact Nat.le_refl _
  | x :: y :: ss, h => by
    rw [join_cons (by simp)]
    simp only [List.length_append, List.length_cons]
    rcases List.mem_cons.1 h with rfl | h
    · omega
    · have := length_join (sep := sep) h
      omega

/-- C46 holds if, decoded, the segments contain no slash, the parts of the query no `&` and nothing a NUL, and
if the path has no `@` and, when there is no port, no colon. -/
theorem C46_options_partial {env : Env} {m : Msg} {r : CoapUri} {host : Bytes} {segs params : List Bytes} (he : env.Ample)
    (hs : Sorted m.ops) (hw : r.WF) (hl : r.text.length < 2 ^ 32) (hd : Decoded r host segs params)
    (ha : ∀ s ∈ r.segments, (0x40 : Byte) ∉ s) (hc : r.port = none → ∀ s ∈ r.segments, (0x3A : Byte) ∉ s)
    (h0 : (0 : Byte) ∉ host) (h1 : ∀ s ∈ segs, (0 : Byte) ∉ s ∧ (0x2F : Byte) ∉ s)
    (h2 : ∀ s ∈ params, (0 : Byte) ∉ s ∧ (0x26 : Byte) ∉ s) :
    ∃ m', uriToCoap env m r.text = .ok m' ∧ HasOptions m m' host r.port segs params := by
  have ht : r.text.length = r.scheme.length + 3 + r.hier.length + (after 0x3F (r.params.map (join 0x26))).length := by
    unfold CoapUri.text
    have : str "://" = [0x3A, 0x2F, 0x2F] := by decide
    rw [this]
    simp only [List.length_append, List.length_cons, List.length_nil]
  have hh : r.hier.length = r.hostText.length + (r.portText.length + r.path.length) := by
    rw [hier_eq]; simp only [List.length_append]
  have l1 : host.length < 2 ^ 32 := by
    have := hd.host.length_le
    have : r.host.length ≤ r.hostText.length := by
      unfold CoapUri.hostText
      split <;> simp
      omega
    omega
  have l2 : ∀ p, r.port = some p → p.length < 2 ^ 32 := by
    intro p hp
    have : r.portText.length = p.length + 1 := by unfold CoapUri.portText; rw [hp]; rfl
    omega
  have l3 : ∀ s ∈ segs, s.length < 2 ^ 32 := by
    intro s hm
    have k1 := length_join (sep := 0x2F) hm
    have k2 := (hd.segments.join (sep := 0x2F) (by decide)).length_le
    have hn : r.segments ≠ [] := fun e => by rw [hd.segments.nil_iff.1 e] at hm; cases hm
    have k3 : r.path.length = (join 0x2F r.segments).length + 1 := by
      unfold CoapUri.path
      rw [path_eq hn, List.length_cons]
    omega
  have l4 : ∀ s ∈ params, s.length < 2 ^ 32 := by
    intro s hm
    have k1 := length_join (sep := 0x26) hm
    have k2 := (hd.params.join (sep := 0x26) (by decide)).length_le
    cases hp : r.params with
    | none =>
      have := hd.params
      rw [hp] at this
      rw [this.nil_iff.1 rfl] at hm
      cases hm
    | some ps =>
      rw [hp] at k2 ht
      simp only [Option.map_some, after, List.length_cons, Option.getD_some] at k2 ht
      omega
  have hp := parse_eq (sx := env.sx) he.1 hw hd ha hc ⟨h0, fun s h => (h1 s h).1, fun s h => (h2 s h).1⟩
  have hu : checkUri ⟨some r.scheme, none, some host, r.port, if segs = [] then none else some (0x2F :: join 0x2F segs),
      r.params.map (fun _ => join 0x26 params), none⟩ = .ok () := by
    unfold checkUri
    dsimp only
    rw [if_pos]
    unfold Http.sameText
    have e1 : (str "coap").map toLower = str "coap" := by decide
    have e2 : (str "coaps").map toLower = str "coaps" := by decide
    rw [e1, e2]
    simp only [Bool.or_eq_true, beq_iff_eq]
    exact hw.scheme
  obtain ⟨m1, e1⟩ := addOp_ok (env := env) he.2.2.1 m 3 host
  have k1 := addOp_added hs l1 e1
  obtain ⟨m2, e2⟩ := addComponent_ok (env := env) he.2.2.1 m1 7 r.port
  have k2 := addComponent_added k1.sorted l2 e2
  obtain ⟨m3, e3, k3⟩ : ∃ m3, addPath env m2 (if segs = [] then none else some (0x2F :: join 0x2F segs)) = .ok m3 ∧
      Added m2 m3 11 (segs.filter (· ≠ [])) := by
    by_cases hn : segs = []
    · rw [if_pos hn, hn]
      exact ⟨m2, rfl, Added.refl k2.sorted 11⟩
    · rw [if_neg hn]
      have e : addPath env m2 (some (0x2F :: join 0x2F segs)) = addParts env 11 m2 segs := by
        have : addPath env m2 (some (0x2F :: join 0x2F segs)) = addParts env 11 m2 (split 0x2F (join 0x2F segs)) := rfl
        rw [this, split_join hn (fun s h => (h1 s h).2)]
      obtain ⟨m3, e3⟩ := addParts_ok (env := env) (num := 11) he.2.2.1 segs m2
      exact ⟨m3, e.trans e3, addParts_added k2.sorted l3 e3⟩
  obtain ⟨m4, e4, k4⟩ : ∃ m4, addQuery env m3 (r.params.map (fun _ => join 0x26 params)) = .ok m4 ∧
      Added m3 m4 15 (params.filter (· ≠ [])) := by
    have hq := hd.params
    cases hp : r.params with
    | none =>
      rw [hp] at hq
      rw [hq.nil_iff.1 rfl]
      exact ⟨m3, rfl, Added.refl k3.sorted 15⟩
    | some ps =>
      rw [hp, Option.getD_some] at hq
      have hn : params ≠ [] := fun e => (hw.params ps hp).1 (hq.nil_iff.2 e)
      have e : addQuery env m3 (some (join 0x26 params)) = addParts env 15 m3 params := by
        unfold addQuery
        dsimp only
        rw [split_join hn (fun s h => (h2 s h).2)]
      obtain ⟨m4, e4⟩ := addParts_ok (env := env) (num := 15) he.2.2.1 params m3
      exact ⟨m4, e.trans e4, addParts_added k3.sorted l4 e4⟩
  refine ⟨m4, ?_, HasOptions.of_added k1 k2 k3 k4⟩
  unfold uriToCoap
  rw [hp, Out.bind_ok, hu, Out.bind_ok]
  dsimp only
  have e1' : addComponent env 3 m (some host) = .ok m1 := e1
  rw [e1', Out.bind_ok, e2, Out.bind_ok, e3, Out.bind_ok, e4]

/-- `coap://h:5683/a%20b//c?x=1&&y`. -/
def exUri : CoapUri := ⟨str "coap", false, str "h", some (str "5683"), [str "a%20b", [], str "c"], some [str "x=1", [], str "y"]⟩

theorem exUri_wf : exUri.WF where
  scheme := Or.inl (by decide)
  host := ⟨by decide, by decide +kernel, fun _ => by decide⟩
  port := by intro p hp; cases hp; decide
  segments := by decide +kernel
  params := by intro ps hp; cases hp; exact ⟨by decide, by decide +kernel⟩
  ascii := by decide +kernel

/-- The hypotheses of C46 are met, and the conclusion is not trivial. -/
example : exUri.text = str "coap://h:5683/a%20b//c?x=1&&y" ∧
    Decoded exUri (str "h") [str "a b", [], str "c"] [str "x=1", [], str "y"] ∧
    uriToCoap ample Msg.create exUri.text = .ok { Msg.create with ops := [⟨3, str "h"⟩, ⟨7, str "5683"⟩, ⟨11, str "a b"⟩,
      ⟨11, str "c"⟩, ⟨15, str "x=1"⟩, ⟨15, str "y"⟩] } := by
  refine ⟨by decide +kernel, ⟨decodes_of (by decide +kernel), ?_, ?_⟩, by decide +kernel⟩
  · exact .cons (decodes_of (by decide +kernel)) (.cons (decodes_of (by decide +kernel)) (.cons (decodes_of (by decide +kernel)) .nil))
  · exact .cons (decodes_of (by decide +kernel)) (.cons (decodes_of (by decide +kernel)) (.cons (decodes_of (by decide +kernel)) .nil))

/-- `coap://h/a%2Fb`: one segment, which is `a/b`. -/
def slashUri : CoapUri := ⟨str "coap", false, str "h", none, [str "a%2Fb"], none⟩

theorem slashUri_wf : slashUri.WF where
  scheme := Or.inl (by decide)
  host := ⟨by decide, by decide +kernel, fun _ => by decide⟩
  port := by intro p hp; cases hp
  segments := by decide +kernel
  params := by intro ps hp; cases hp
  ascii := by decide +kernel

/-- C46 fails: the path is decoded before it is split, so that an encoded slash ends a segment. -/
theorem C46_violated : ¬ C46_statement := by
  intro h
  obtain ⟨m', e, ho⟩ := h ample Msg.create slashUri (str "h") [str "a/b"] [] ample_ample List.Pairwise.nil slashUri_wf (by decide +kernel)
    ⟨decodes_of (by decide +kernel), .cons (decodes_of (by decide +kernel)) .nil, .nil⟩
  have e' : uriToCoap ample Msg.create slashUri.text =
      .ok { Msg.create with ops := [⟨3, str "h"⟩, ⟨11, str "a"⟩, ⟨11, str "b"⟩] } := by decide +kernel
  rw [e'] at e
  cases e
  exact absurd ho.path (by decide +kernel)

/-- What holds for every text: if it is accepted, it was read as a URI with the scheme `coap` or `coaps` and without fragment,
and the options are the host, the port, the nonempty parts of the path between slashes and the nonempty parts of the query
between ampersands. -/
theorem C46_any {env : Env} {m m' : Msg} {s : Bytes} (hs : Sorted m.ops) (h : uriToCoap env m s = .ok m') :
    ∃ u, Uri.parse env.sx env.uri s = .ok u ∧ u.fragment = none ∧
      (∃ c, u.scheme = some c ∧ (c.map toLower = str "coap" ∨ c.map toLower = str "coaps")) ∧
      (∀ p, u.path = some p → p.head? = some 0x2F) ∧
      ((∀ t, (u.host = some t ∨ u.port = some t ∨ u.path = some t ∨ u.query = some t) → t.length < 2 ^ 32) →
        values 3 m' = values 3 m ++ u.host.toList ∧ values 7 m' = values 7 m ++ u.port.toList ∧
        (∃ segs, (u.path = none ∧ segs = [] ∨ u.path = some (0x2F :: join 0x2F segs)) ∧ (∀ t ∈ segs, 0x2F ∉ t) ∧
          values 11 m' = values 11 m ++ segs.filter (· ≠ [])) ∧
        (∃ params, (u.query = none ∧ params = [] ∨ u.query = some (join 0x26 params)) ∧ (∀ t ∈ params, 0x26 ∉ t) ∧
          values 15 m' = values 15 m ++ params.filter (· ≠ [])) ∧
        (∀ k, k ≠ 3 → k ≠ 7 → k ≠ 11 → k ≠ 15 → values k m' = values k m) ∧ Sorted m'.ops) := by
  unfold uriToCoap at h
  obtain ⟨u, hu, h⟩ := Out.bind_eq_ok.1 h
  obtain ⟨⟨⟩, hck, h⟩ := Out.bind_eq_ok.1 h
  obtain ⟨m1, e1, h⟩ := Out.bind_eq_ok.1 h
  obtain ⟨m2, e2, h⟩ := Out.bind_eq_ok.1 h
  obtain ⟨m3, e3, e4⟩ := Out.bind_eq_ok.1 h
  clear h
  refine ⟨u, hu, ?_⟩
  have hck' : u.fragment = none ∧ ∃ c, u.scheme = some c ∧ (c.map toLower = str "coap" ∨ c.map toLower = str "coaps") := by
    unfold checkUri at hck
    split at hck
    · cases hck
    · cases hck
    · rename_i s h1 h2
      split at hck
      · rename_i hc
        refine ⟨h1, s, h2, ?_⟩
        unfold Http.sameText at hc
        have e1 : (str "coap").map toLower = str "coap" := by decide
        have e2 : (str "coaps").map toLower = str "coaps" := by decide
        rw [e1, e2] at hc
        simpa only [Bool.or_eq_true, beq_iff_eq] using hc
      · cases hck
  refine ⟨hck'.1, hck'.2, ?_, ?_⟩
  · intro p hp
    rw [hp] at e3
    unfold addPath at e3
    dsimp only at e3
    split at e3
    · rfl
    · cases e3
  · intro hl
    have k1 := addComponent_added hs (fun t ht => hl t (Or.inl ht)) e1
    have k2 := addComponent_added k1.sorted (fun t ht => hl t (Or.inr (Or.inl ht))) e2
    obtain ⟨segs, hp1, hp2, k3⟩ : ∃ segs, (u.path = none ∧ segs = [] ∨ u.path = some (0x2F :: join 0x2F segs)) ∧
        (∀ t ∈ segs, (0x2F : Byte) ∉ t) ∧ Added m2 m3 11 (segs.filter (· ≠ [])) := by
      cases hp : u.path with
      | none =>
        rw [hp] at e3
        cases e3
        exact ⟨[], Or.inl ⟨rfl, rfl⟩, by simp, Added.refl k2.sorted 11⟩
      | some p =>
        rw [hp] at e3
        unfold addPath at e3
        dsimp only at e3
        split at e3
        · rename_i q
          refine ⟨split 0x2F q, Or.inr (by rw [join_split]), split_no_sep q, addParts_added k2.sorted ?_ e3⟩
          intro t ht
          have b1 := length_join (sep := 0x2F) ht
          rw [join_split] at b1
          have b2 := hl _ (Or.inr (Or.inr (Or.inl hp)))
          rw [List.length_cons] at b2
          omega
        · cases e3
    obtain ⟨params, hq1, hq2, k4⟩ : ∃ params, (u.query = none ∧ params = [] ∨ u.query = some (join 0x26 params)) ∧
        (∀ t ∈ params, (0x26 : Byte) ∉ t) ∧ Added m3 m' 15 (params.filter (· ≠ [])) := by
      cases hp : u.query with
      | none =>
        rw [hp] at e4
        cases e4
        exact ⟨[], Or.inl ⟨rfl, rfl⟩, by simp, Added.refl k3.sorted 15⟩
      | some q =>
        rw [hp] at e4
        refine ⟨split 0x26 q, Or.inr (by rw [join_split]), split_no_sep q, addParts_added k3.sorted ?_ e4⟩
        intro t ht
        have b1 := length_join (sep := 0x26) ht
        rw [join_split] at b1
        have b2 := hl _ (Or.inr (Or.inr (Or.inr hp)))
        omega
    have key : ∀ k, values k m' = values k m ++ (if 3 = k then u.host.toList else []) ++ (if 7 = k then u.port.toList else []) ++
        (if 11 = k then segs.filter (· ≠ []) else []) ++ (if 15 = k then params.filter (· ≠ []) else []) := by
      intro k
      rw [k4.vals, k3.vals, k2.vals, k1.vals]
    refine ⟨?_, ?_, ⟨segs, hp1, hp2, ?_⟩, ⟨params, hq1, hq2, ?_⟩, ?_, k4.sorted⟩
    · rw [key]; simp
    · rw [key]; simp
    · rw [key]; simp
    · rw [key]; simp
    · intro k j1 j2 j3 j4
      rw [key, if_neg (Ne.symm j1), if_neg (Ne.symm j2), if_neg (Ne.symm j3), if_neg (Ne.symm j4)]
      simp

end FreeCoAP.Cross
