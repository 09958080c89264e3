import Verif.Proxy.SpecConn
import Verif.Proxy.Props
import Verif.Proxy.Props2
import Verif.Proxy.Props3

/-!
# Properties of a connection of the proxy: requests and responses
-/

namespace FreeCoAP.Proxy

open FreeCoAP.DataBuf (Buf content)
open FreeCoAP.Http (HMsg RawMsg)

/-! ## C77: every request is answered once, in order -/

/-- C77: requests that an HTTP client sends one at a time are each answered with exactly one complete response, if there is memory and the client reads
the responses, whatever the CoAP servers do. -/
def C77_statement : Prop :=
  ∀ (W : Nat) (c : Conn) (l : List (RawMsg × List In × Turn)), 2 * MAX + 1 < W → connNew W true true true = .ok c →
    (∀ x ∈ l, Fair x.1 x.2.1 x.2.2 ∧ Tame x.2.2.w) →
    ∃ log, conversation W c (l.map (fun x => (x.1.text, x.2.1, x.2.2))) = .ok (log, .done) ∧ log.length = l.length ∧
      ∀ e ∈ log, ∃ h : HMsg, e.out = Http.text h

theorem connNew_ok {W : Nat} {c : Conn} {o1 o2 o3 : Bool} (hW : 2 * MAX + 1 < W) (h : connNew W o1 o2 o3 = .ok c) :
    Room c.recv ∧ content c.recv = [] ∧ Empty c.send ∧ c.peer = none := by
  unfold connNew at h
  obtain ⟨r, hr, h⟩ := Out.bind_eq_ok.1 h
  obtain ⟨s, hs, h⟩ := Out.bind_eq_ok.1 h
  have t : ∀ {o : Bool} {b : Buf}, DataBuf.create W BUF MAX o = .ok b → DataBuf.create W BUF MAX true = .ok b := by
    intro o b h
    cases o with
    | true => exact h
    | false =>
      unfold DataBuf.create at h
      rw [if_neg (by decide), if_neg (by decide)] at h
      cases h
  cases o3 with
  | false => cases h
  | true =>
    cases h
    exact ⟨(create_room hW (t hr)).1, (create_room hW (t hr)).2, create_empty hW (t hs), rfl⟩

theorem writeFull_why : ∀ (ws : List Write) (done todo : Bytes), (done ++ todo) ≠ [] →
    match (writeFull ws done todo).2 with
    | .ok => True
    | .closed => .closed ∈ ws ∨ .wrote 0 ∈ ws
    | .failed e => e = .EIO ∧ .error ∈ ws
    | .waiting => ws.length < todo.length
  | ws, done, [], h => by
    rw [List.append_nil] at h
    have e : writeFull ws done [] = (done, .ok) := by
      cases ws <;> simp only [writeFull, if_neg h]
    rw [e]
    trivial
  | [], done, c :: todo, h => Nat.succ_pos _
  | .wrote 0 :: ws, done, c :: todo, h => .inr (List.mem_cons_self ..)
  | .closed :: ws, done, c :: todo, h => .inl (List.mem_cons_self ..)
  | .error :: ws, done, c :: todo, h => ⟨rfl, List.mem_cons_self ..⟩
  | .wrote (k + 1) :: ws, done, c :: todo, h => by
    have e : done ++ (c :: todo).take (k + 1) ++ (c :: todo).drop (k + 1) = done ++ c :: todo := by
      rw [List.append_assoc, List.take_append_drop]
    have := writeFull_why ws (done ++ (c :: todo).take (k + 1)) ((c :: todo).drop (k + 1)) (by rw [e]; exact h)
    change match (writeFull ws (done ++ (c :: todo).take (k + 1)) ((c :: todo).drop (k + 1))).2 with
      | .ok => True
      | .closed => .closed ∈ (Write.wrote (k + 1) :: ws) ∨ .wrote 0 ∈ (Write.wrote (k + 1) :: ws)
      | .failed e => e = .EIO ∧ .error ∈ (Write.wrote (k + 1) :: ws)
      | .waiting => (Write.wrote (k + 1) :: ws).length < (c :: todo).length
    revert this
    generalize (writeFull ws (done ++ (c :: todo).take (k + 1)) ((c :: todo).drop (k + 1))).2 = r
    intro this
    cases r with
    | ok => trivial
    | closed => exact this.imp (List.mem_cons_of_mem _) (List.mem_cons_of_mem _)
    | failed e => exact ⟨this.1, List.mem_cons_of_mem _ this.2⟩
    | waiting =>
      change ws.length < ((c :: todo).drop (k + 1)).length at this
      simp only [List.length_drop, List.length_cons] at this ⊢
      omega

theorem wrote_stored {h : HMsg} {size : Nat} (hs : IsSize size) : Wrote h (stored size (Http.text h)) := by
  unfold stored
  split
  · rename_i e
    exact .inr ⟨e ▸ hs, rfl⟩
  · exact .inl rfl

/-- Sending: everything or a beginning with a reason. -/
theorem send_ends {W : Nat} (hW : 2 * MAX + 1 < W) (h : HMsg) (t : Turn) (hf : ∀ i, Sized (t.fresh i)) {b : Buf} (hb : Empty b) :
    ∃ out r b', send W h t.fresh t.ws b = .ok (out, r, b') ∧ Empty b' ∧
      (r = .ok ∧ Wrote h out ∨ WroteSome h out ∧ Break t h r.status) := by
  rcases send_ok hW h hf t.ws hb with ⟨b', e, hb', hl, -, -⟩ | ⟨b', e, he, hb', -, hx⟩
  · have hbb := hb'.size.bounds
    have hlen := stored_length (t := Http.text h) (size := b'.size) (by omega)
    have hne : ([] : Bytes) ++ stored b'.size (Http.text h) ≠ [] := by
      rw [List.nil_append]
      intro h0
      rw [h0] at hlen
      exact text_ne_nil h (List.length_eq_zero_iff.1 hlen.symm)
    have hw := writeFull_ok t.ws [] (stored b'.size (Http.text h)) hne
    have hy := writeFull_why t.ws [] (stored b'.size (Http.text h)) hne
    rw [List.nil_append] at hw
    refine ⟨_, _, b', e, hb', ?_⟩
    revert hw hy
    generalize writeFull t.ws [] (stored b'.size (Http.text h)) = x
    obtain ⟨out, r⟩ := x
    rintro ⟨⟨rest, h1⟩, h2, -⟩ hy
    have hs : WroteSome h out := ⟨_, rest, wrote_stored hb'.size, h1⟩
    cases r with
    | ok => exact .inl ⟨rfl, (h2 rfl : out = _) ▸ wrote_stored hb'.size⟩
    | closed => exact .inr ⟨hs, hy⟩
    | failed e => exact .inr ⟨hs, .inl hy⟩
    | waiting =>
      refine .inr ⟨hs, ?_⟩
      change t.ws.length < _ at hy
      change t.ws.length < (Http.text h).length
      rw [hlen] at hy
      exact hy
  · exact ⟨_, _, b', he, hb', .inr ⟨⟨_, _, .inl rfl, rfl⟩, .inr hx⟩⟩

/-- Answering a request. -/
theorem answer_ends {W : Nat} (hW : 2 * MAX + 1 < W) {t : Turn} (hf : ∀ i, Sized (t.fresh i)) {c : Conn} (hc : Empty c.send) (m : HMsg) :
    (process t.w c.peer m).res = .ub ∧ answer W t c m = .ub ∨
    (∃ p' calls e, process t.w c.peer m = ⟨p', calls, .err e⟩ ∧ answer W t c m = .ok (.failed e, ⟨calls, []⟩, { c with peer := p' })) ∨
    (∃ p' calls h out r b', process t.w c.peer m = ⟨p', calls, .ok h⟩ ∧ send W h t.fresh t.ws c.send = .ok (out, r, b') ∧
      answer W t c m = .ok (r.status, ⟨calls, out⟩, { c with peer := p', send := b' }) ∧
      Empty b' ∧ (r = .ok ∧ Wrote h out ∨ WroteSome h out ∧ Break t h r.status)) := by
  unfold answer
  generalize process t.w c.peer m = p
  obtain ⟨p', calls, res⟩ := p
  dsimp only
  cases res with
  | ub => exact .inl ⟨rfl, rfl⟩
  | err e => exact .inr (.inl ⟨p', calls, e, rfl, rfl⟩)
  | ok h =>
    obtain ⟨out, r, b', e, hb', hx⟩ := send_ends hW h t hf hc
    refine .inr (.inr ⟨p', calls, h, out, r, b', rfl, e, ?_, hb', hx⟩)
    dsimp only
    rw [e]
    rfl

theorem Silence.more {rs : List RawMsg} {es es' : List In} {e : Status} {r : RawMsg} (h : Silence rs es e) (c : List In) (he : es' = c ++ es) :
    Silence (r :: rs) es' e := by
  subst he
  cases e with
  | done => exact h
  | timedOut => exact List.mem_append_right _ h
  | closed => trivial
  | waiting => trivial
  | failed x =>
    rcases h with h | ⟨h, hx⟩ | ⟨hx, q, hq, h⟩
    · exact .inl (List.mem_append_right _ h)
    · exact .inr (.inl ⟨List.mem_append_right _ h, hx⟩)
    · exact .inr (.inr ⟨hx, q, List.mem_cons_of_mem _ hq, h⟩)

theorem thread_none {W : Nat} {t : Turn} {ts : List Turn} {c : Conn} {s s' : Bytes} {es es' : List In} {b' : Buf} {res : Recv} {st : Status}
    (e : recv W c.recv s es = .ok (res, b', s', es'))
    (hr : res = .timedOut ∧ st = .timedOut ∨ res = .closed ∧ st = .closed ∨ (∃ x, res = .failed x ∧ st = .failed x) ∨
      res = .waiting ∧ st = .waiting) : thread W (t :: ts) c s es = .ok ([], st) := by
  unfold thread transact
  rw [e, Out.bind_ok]
  rcases hr with ⟨rfl, rfl⟩ | ⟨rfl, rfl⟩ | ⟨x, rfl, rfl⟩ | ⟨rfl, rfl⟩ <;> rfl

theorem thread_dialog {W : Nat} (hW : 2 * MAX + 1 < W) {u : Bytes} {all : List In} : ∀ (ts : List Turn) (rs : List RawMsg) (c : Conn) (s : Bytes)
    (es : List In), Room c.recv → Empty c.send → (∀ r ∈ rs, r.WF) → (∀ e ∈ es, e.Ample) → (∃ p, all = p ++ es) →
    (∀ t ∈ ts, ∀ i, Sized (t.fresh i)) → content c.recv ++ s ++ u = texts rs →
    (∃ r ∈ rs, ∃ t ∈ ts, ∃ p, (process t.w p r.msg).res = .ub) ∧ thread W ts c s es = .ub ∨
    ∃ log st, thread W ts c s es = .ok (log, st) ∧ Dialog all c.peer rs ts log st
  | [], rs, c, s, es, _, _, _, _, _, _, _ => .inr ⟨_, _, rfl, .sofar⟩
  | t :: ts, [], c, s, es, hb, hc, hr, he, ⟨pre, ha⟩, hf, hs => by
    have hs0 : s = [] := by
      have : content c.recv ++ s ++ u = [] := hs
      simp only [List.append_eq_nil_iff] at this
      exact this.1.2
    subst hs0
    subst ha
    right
    cases es with
    | nil => exact ⟨_, _, thread_none rfl (.inr (.inr (.inr ⟨rfl, rfl⟩))), .none trivial⟩
    | cons x es =>
      cases x with
      | timeout => exact ⟨_, _, thread_none rfl (.inl ⟨rfl, rfl⟩), .none (by simp [Silence])⟩
      | selectError e => exact ⟨_, _, thread_none rfl (.inr (.inr (.inl ⟨_, rfl, rfl⟩))), .none (by simp [Silence])⟩
      | readError => exact ⟨_, _, thread_none rfl (.inr (.inr (.inl ⟨_, rfl, rfl⟩))), .none (by simp [Silence])⟩
      | data k mem fresh =>
        have e : recv W c.recv [] (.data k mem fresh :: es) = .ok (.closed, c.recv, [], es) := by
          unfold recv
          rw [List.take_nil]
          rfl
        exact ⟨_, _, thread_none e (.inr (.inl ⟨rfl, rfl⟩)), .none trivial⟩
  | t :: ts, r :: rs, c, s, es, hb, hc, hr, he, ⟨pre, ha⟩, hf, hs => by
    have hs' : content c.recv ++ s ++ u = r.text ++ texts rs := hs
    obtain ⟨res, b', s', es', e, hcame⟩ := recv_came hW (hr r (List.mem_cons_self ..)) es c.recv s hb he hs'
    cases hcame with
    | waiting h1 h2 h3 h4 => exact .inr ⟨_, _, thread_none e (.inr (.inr (.inr ⟨rfl, rfl⟩))), .none trivial⟩
    | timedOut h1 =>
      exact .inr ⟨_, _, thread_none e (.inl ⟨rfl, rfl⟩), .none (ha ▸ List.mem_append_right _ h1)⟩
    | closed h1 h2 => exact .inr ⟨_, _, thread_none e (.inr (.inl ⟨rfl, rfl⟩)), .none trivial⟩
    | failed h1 =>
      refine .inr ⟨_, _, thread_none e (.inr (.inr (.inl ⟨_, rfl, rfl⟩))), .none ?_⟩
      subst ha
      rcases h1 with h1 | ⟨h1, hx⟩ | ⟨hx, h1⟩
      · exact .inl (List.mem_append_right _ h1)
      · exact .inr (.inl ⟨List.mem_append_right _ h1, hx⟩)
      · exact .inr (.inr ⟨hx, r, List.mem_cons_self .., h1⟩)
    | msg h1 h2 h3 h4 h5 =>
      obtain ⟨pre', rfl⟩ := h4
      have hft := hf t (List.mem_cons_self ..)
      unfold thread transact
      rw [e, Out.bind_ok]
      dsimp only
      rcases answer_ends hW (c := { c with recv := b' }) hft hc r.msg with ⟨hu, ea⟩ | ⟨p', calls, x, hp, ea⟩ |
        ⟨p', calls, h, out, x, b2, hp, -, ea, hb2, hx⟩
      · left
        rw [ea]
        exact ⟨⟨r, List.mem_cons_self .., t, List.mem_cons_self .., _, hu⟩, rfl⟩
      · right
        rw [ea]
        exact ⟨_, _, rfl, .lost hp⟩
      · rw [ea]
        change (_ ∧ (match x.status with
          | .done => thread W ts ⟨b', b2, p'⟩ s' es' >>= fun l => (pure ([Entry.mk calls out] ++ l.1, l.2) : Out (List Entry × Status))
          | e => (pure ([Entry.mk calls out], e) : Out (List Entry × Status))) = .ub) ∨ (∃ log st, (match x.status with
          | .done => thread W ts ⟨b', b2, p'⟩ s' es' >>= fun l => (pure ([Entry.mk calls out] ++ l.1, l.2) : Out (List Entry × Status))
          | e => (pure ([Entry.mk calls out], e) : Out (List Entry × Status))) = .ok (log, st) ∧ _)
        rcases hx with ⟨rfl, hx⟩ | ⟨hx, hy⟩
        · rcases thread_dialog hW (u := u) (all := all) ts rs ⟨b', b2, p'⟩ s' es' h1 hb2 (fun r h => hr r (List.mem_cons_of_mem _ h))
            (fun e h => he e (List.mem_append_right _ h)) ⟨pre ++ pre', by rw [ha, List.append_assoc]⟩
            (fun t h => hf t (List.mem_cons_of_mem _ h)) h2 with ⟨⟨r', hr', t', ht', p, hu⟩, e2⟩ | ⟨log, st, e2, hd⟩
          · left
            refine ⟨⟨r', List.mem_cons_of_mem _ hr', t', List.mem_cons_of_mem _ ht', p, hu⟩, ?_⟩
            change (thread W ts ⟨b', b2, p'⟩ s' es' >>= _) = _
            rw [e2]
            rfl
          · right
            refine ⟨⟨calls, out⟩ :: log, st, ?_, .answered hp hx hd⟩
            change (thread W ts ⟨b', b2, p'⟩ s' es' >>= _) = _
            rw [e2]
            rfl
        · right
          cases x with
          | ok => exact (hy : False).elim
          | closed => exact ⟨_, _, rfl, .cut hp hx hy⟩
          | failed y => exact ⟨_, _, rfl, .cut hp hx hy⟩
          | waiting => exact ⟨_, _, rfl, .cut hp hx hy⟩

/-- C77, the order: whatever the segments in which well-formed requests arrive (`u` has not been sent yet) and whatever the CoAP side does, the
requests are processed one by one in the order in which they were sent, each with what the ones before left, and what is written to the HTTP client are their
responses in this order, each completely before the next; and it does not end without a cause. -/
theorem C77_order_partial {W : Nat} {c : Conn} {o1 o2 o3 : Bool} {rs : List RawMsg} {ts : List Turn} {s u : Bytes} {es : List In}
    (hW : 2 * MAX + 1 < W) (hc : connNew W o1 o2 o3 = .ok c) (hr : ∀ r ∈ rs, r.WF) (he : ∀ e ∈ es, e.Ample)
    (hf : ∀ t ∈ ts, ∀ i, Sized (t.fresh i)) (hs : s ++ u = texts rs)
    (hd : ∀ r ∈ rs, ∀ t ∈ ts, ∀ p, (process t.w p r.msg).res ≠ .ub) :
    ∃ log st, thread W ts c s es = .ok (log, st) ∧ Dialog es none rs ts log st := by
  obtain ⟨h1, h2, h3, h4⟩ := connNew_ok hW hc
  rcases thread_dialog hW (u := u) (all := es) ts rs c s es h1 h3 hr he ⟨[], rfl⟩ hf (by rw [h2, List.nil_append]; exact hs) with
    ⟨⟨r, hr', t, ht, p, hu⟩, -⟩ | h
  · exact absurd hu (hd r hr' t ht p)
  · rw [h4] at h
    exact h

theorem conversation_answered {W : Nat} (hW : 2 * MAX + 1 < W) : ∀ (l : List (RawMsg × List In × Turn)) (c : Conn) (log : List Entry),
    Room c.recv → content c.recv = [] → Empty c.send → (∀ x ∈ l, Fair x.1 x.2.1 x.2.2) →
    AllAnswered c.peer (l.map (·.1)) (l.map (·.2.2)) log → (∀ e ∈ log, e.out.length ≤ 32768 ∧ ¬ IsSize e.out.length) →
    conversation W c (l.map (fun x => (x.1.text, x.2.1, x.2.2))) = .ok (log, .done)
  | [], c, log, _, _, _, _, ha, _ => by
    cases ha
    rfl
  | (r, es, t) :: l, c, log, hb, hb0, hc, hf, ha, hl => by
    have f : Fair r es t := hf _ (List.mem_cons_self ..)
    simp only [List.map_cons] at ha ⊢
    cases ha with
    | cons hp ha =>
      rename_i p' calls h log
      obtain ⟨hl1, hl2⟩ := hl _ (List.mem_cons_self ..)
      obtain ⟨b', s', es', e, hb', hc'⟩ := recv_live hW f.wf f.short hb hb0 f.ample f.enough
      obtain ⟨out, x, b2, e2, hb2, hw⟩ := send_written hW ⟨h, t.fresh, t.ws⟩ f.sized hc
      have hx : x = .ok := hw.live hl1 f.memory f.takes (Nat.le_trans hl1 f.all)
      subst hx
      have ho : out = Http.text h := hw.all hl2 rfl
      subst ho
      have ih := conversation_answered hW l ⟨b', b2, p'⟩ log hb' hc' hb2 (fun x hx => hf x (List.mem_cons_of_mem _ hx)) ha
        (fun e he => hl e (List.mem_cons_of_mem _ he))
      have ea : answer W t { c with recv := b' } r.msg = .ok (.done, ⟨calls, Http.text h⟩, ⟨b', b2, p'⟩) := by
        unfold answer
        dsimp only at hp e2 ⊢
        rw [hp]
        dsimp only
        rw [e2]
        rfl
      unfold conversation transact
      rw [e, Out.bind_ok]
      dsimp only
      rw [ea]
      change (conversation W ⟨b', b2, p'⟩ (l.map (fun x => (x.1.text, x.2.1, x.2.2))) >>= _) = _
      rw [ih]
      rfl

/-- C77, the answers: requests that are sent one at a time are all answered, each with exactly its response, if there is memory and the client reads the
responses, as long as the processing of each comes to a response, which is not longer than the buffer and not exactly as long as one of its sizes. -/
theorem C77_answered_partial {W : Nat} {c : Conn} {l : List (RawMsg × List In × Turn)} {log : List Entry} (hW : 2 * MAX + 1 < W)
    (hc : connNew W true true true = .ok c) (hf : ∀ x ∈ l, Fair x.1 x.2.1 x.2.2)
    (ha : AllAnswered none (l.map (·.1)) (l.map (·.2.2)) log) (hl : ∀ e ∈ log, e.out.length ≤ 32768 ∧ ¬ IsSize e.out.length) :
    conversation W c (l.map (fun x => (x.1.text, x.2.1, x.2.2))) = .ok (log, .done) := by
  obtain ⟨h1, h2, h3, h4⟩ := connNew_ok hW hc
  exact conversation_answered hW l c log h1 h2 h3 hf (by rw [h4]; exact ha) hl

/-- A GET request of an HTTP client. -/
def get : RawMsg := ⟨str "GET", str "coap://h:5683/a", str "HTTP/1.1", [], .none⟩

theorem get_wf : get.WF := by
  refine ⟨by decide, by decide, by decide, by simp [get], ⟨?_, .inl ?_⟩, by decide⟩
  · rintro ⟨h, hh, -⟩
    simp [get] at hh
  · intro h hh
    simp [get] at hh

/-- The HTTP response to it in which the CoAP server says `hello`. -/
def got : HMsg := ⟨str "HTTP/1.1", str "200", str "OK", [⟨str "Content-Length", str "5"⟩], some (str "hello")⟩

/-- A socket that takes everything. -/
def turn (w : World) : Turn := ⟨w, fun _ => heap, List.replicate MAX (.wrote MAX)⟩

theorem turn_fair {w : World} {k : Nat} (hk : 0 < k) : Fair get (List.replicate 40 (arrival k)) (turn w) := by
  have hl : get.text.length = 32 := by decide
  refine ⟨get_wf, by rw [hl]; decide, fun e he => ?_, by rw [hl, List.length_replicate]; decide, fun _ => heap_sized, fun i n h => ?_, fun x hx => ?_, ?_⟩
  · rw [List.eq_of_mem_replicate he]
    exact arrival_ok hk
  · cases h
  · exact ⟨MAX - 1, List.eq_of_mem_replicate hx⟩
  · unfold turn
    rw [List.length_replicate]
    exact Nat.le_refl _

theorem processed_ext {p : Processed} {a b c} (h1 : p.peer = a) (h2 : p.calls = b) (h3 : p.res = c) : p = ⟨a, b, c⟩ := by
  subst h1 h2 h3
  rfl

/-- The hypotheses are met by two requests. -/
example : AllAnswered none [get, get] [turn (world hello), turn (world hello)]
    [⟨[((str "h", str "5683"), .plain { Msg.create with codeDetail := 1, ops := exOps })], Http.text got⟩,
      ⟨[((str "h", str "5683"), .plain { Msg.create with codeDetail := 1, ops := exOps })], Http.text got⟩] ∧
    (Http.text got).length ≤ MAX ∧ ¬ IsSize (Http.text got).length := by
  have e : ∀ p, p = none ∨ p = some (str "h", str "5683") → process (world hello) p get.msg = ⟨some (str "h", str "5683"),
      [((str "h", str "5683"), .plain { Msg.create with codeDetail := 1, ops := exOps })], .ok got⟩ := by
    rintro p (rfl | rfl)
    all_goals
      apply processed_ext <;> decide +kernel
  exact ⟨.cons (e _ (.inl rfl)) (.cons (e _ (.inr rfl)) .nil), by decide +kernel, by decide +kernel⟩

/-- A world in which no CoAP server can be reached. -/
def unreachable : World := { world hello with connect := fun _ _ => .err .EIO }

/-- C77 fails: if the CoAP server cannot be reached (or its name is unknown) the connection with the HTTP client is closed without a
response. -/
theorem C77_violated : ¬ C77_statement := by
  intro h
  obtain ⟨log, e, -, -⟩ := h (2 ^ 32) ⟨⟨0, BUF, MAX, List.replicate 4097 0⟩, ⟨0, BUF, MAX, List.replicate 4097 0⟩, none⟩
    [(get, List.replicate 40 (arrival 1), turn unreachable)] (by decide) rfl
    (fun x hx => by
      rw [List.mem_singleton] at hx
      subst hx
      exact ⟨turn_fair (by decide), ⟨fun _ _ => by simp [turn, unreachable], world_tame.exchange, world_tame.blockwise⟩⟩)
  have e2 : conversation (2 ^ 32) ⟨⟨0, BUF, MAX, List.replicate 4097 0⟩, ⟨0, BUF, MAX, List.replicate 4097 0⟩, none⟩
    [(get.text, List.replicate 40 (arrival 1), turn unreachable)] = .ok ([⟨[], []⟩], .failed .EIO) := by decide +kernel
  rw [List.map_singleton, e2] at e
  cases e

/-! ## C78: a request is not more than one request -/

/-- C78: the text of one HTTP message is taken for at most one request, whatever the segments in which it arrives. -/
def C78_statement : Prop :=
  ∀ (W : Nat) (c : Conn) (r : RawMsg) (ts : List Turn) (s u : Bytes) (es : List In) (log : List Entry) (st : Status), 2 * MAX + 1 < W →
    connNew W true true true = .ok c → OneMessage r → (∀ e ∈ es, e.Ample) → (∀ t ∈ ts, ∀ i, Sized (t.fresh i)) → s ++ u = r.text →
    thread W ts c s es = .ok (log, st) → log.length ≤ 1

theorem Dialog.length_le {es : List In} {p : Peer} {rs : List RawMsg} {ts : List Turn} {log : List Entry} {st : Status}
    (h : Dialog es p rs ts log st) : log.length ≤ rs.length := by
  induction h with
  | sofar => exact Nat.zero_le _
  | none _ => exact Nat.zero_le _
  | lost _ => exact Nat.succ_le_succ (Nat.zero_le _)
  | cut _ _ _ => exact Nat.succ_le_succ (Nat.zero_le _)
  | answered _ _ _ ih => exact Nat.succ_le_succ ih

/-- C78 for messages without other transfer codings than `chunked`. -/
theorem C78_single_partial {W : Nat} {c : Conn} {rs : List RawMsg} {ts : List Turn} {s u : Bytes} {es : List In} {log : List Entry} {st : Status}
    (hW : 2 * MAX + 1 < W) (hc : connNew W true true true = .ok c) (hr : ∀ r ∈ rs, r.WF) (he : ∀ e ∈ es, e.Ample)
    (hf : ∀ t ∈ ts, ∀ i, Sized (t.fresh i)) (hs : s ++ u = texts rs) (e : thread W ts c s es = .ok (log, st)) : log.length ≤ rs.length := by
  obtain ⟨h1, h2, h3, h4⟩ := connNew_ok hW hc
  rcases thread_dialog hW (u := u) (all := es) ts rs c s es h1 h3 hr he ⟨[], rfl⟩ hf (by rw [h2, List.nil_append]; exact hs) with
    ⟨-, e2⟩ | ⟨log', st', e2, hd⟩
  · rw [e2] at e
    cases e
  · rw [e2] at e
    cases e
    exact hd.length_le

/-- A PUT request with a body that is compressed and chunked. -/
def hidden : RawMsg :=
  ⟨str "PUT", str "coap://h:5683/a", str "HTTP/1.1", [⟨str "Transfer-Encoding", str " gzip, chunked"⟩],
    .chunked [⟨str "22", str ";a=\" b c\"", str "\r\nGET coap://h:5683/b HTTP/1.1\r\n\r\n"⟩] (str "0") [] []⟩

theorem hidden_one : OneMessage hidden := by
  refine ⟨by decide, by decide, by decide, fun h hh => ?_, by decide, ?_, ?_, ?_, ?_, ?_⟩
  · simp only [hidden, List.mem_singleton] at hh
    subst hh
    exact ⟨by decide, by decide, by decide⟩
  · exact ⟨[], _, [], rfl, by decide, by simp, str "gzip, ", by decide, .inr ⟨str "gzip", rfl⟩⟩
  · intro c hc
    rw [List.mem_singleton] at hc
    subst hc
    exact ⟨⟨by decide, by decide, by decide, by decide⟩, by decide⟩
  · exact ⟨by decide, by decide, by decide, by decide⟩
  · simp
  · decide

/-- What becomes of it if it arrives in segments of 20 bytes: three requests are processed. -/
theorem hidden_taken : (match thread (2 ^ 32) (List.replicate 3 (turn (world hello)))
      ⟨⟨0, BUF, MAX, List.replicate 4097 0⟩, ⟨0, BUF, MAX, List.replicate 4097 0⟩, none⟩ hidden.text (List.replicate 8 (arrival 20)) with
    | .ok (log, _) => log.map (·.calls)
    | _ => []) =
    [[((str "h", str "5683"), .plain { Msg.create with codeDetail := 3, ops := exOps })], [],
      [((str "h", str "5683"), .plain { Msg.create with codeDetail := 1, ops := [⟨3, str "h"⟩, ⟨7, str "5683"⟩, ⟨11, str "b"⟩] })]] := by
  decide +kernel

/-- C78 fails: the body of a request with another transfer coding is taken for further requests, which the CoAP server gets. -/
theorem C78_violated : ¬ C78_statement := by
  intro h
  have ht := hidden_taken
  cases e : thread (2 ^ 32) (List.replicate 3 (turn (world hello)))
      ⟨⟨0, BUF, MAX, List.replicate 4097 0⟩, ⟨0, BUF, MAX, List.replicate 4097 0⟩, none⟩ hidden.text (List.replicate 8 (arrival 20)) with
  | err x => rw [e] at ht; cases ht
  | ub => rw [e] at ht; cases ht
  | ok x =>
    obtain ⟨log, st⟩ := x
    rw [e] at ht
    have := h _ _ hidden _ hidden.text [] _ log st (by decide) rfl hidden_one
      (fun e he => by
        rw [List.eq_of_mem_replicate he]
        exact (arrival_ok (by decide)).1)
      (fun t ht => by
        rw [List.eq_of_mem_replicate ht]
        exact fun _ => heap_sized)
      (List.append_nil _) e
    have hl := congrArg List.length ht
    change (log.map (·.calls)).length = 3 at hl
    rw [List.length_map] at hl
    omega

/-- The hypotheses of `C77_order_partial` and `C78_single_partial` are met by two requests in one stream. -/
example : (∀ r ∈ [get, get], r.WF) ∧ get.text ++ get.text = texts [get, get] ∧
    (match thread (2 ^ 32) [turn (world hello), turn (world hello)]
      ⟨⟨0, BUF, MAX, List.replicate 4097 0⟩, ⟨0, BUF, MAX, List.replicate 4097 0⟩, none⟩ (get.text ++ get.text)
      (List.replicate 8 (arrival 20)) with
    | .ok (log, st) => decide (st = .done ∧ log.map (·.out) = [Http.text got, Http.text got])
    | _ => false) = true := by
  refine ⟨fun r hr => ?_, by simp [texts], by decide +kernel⟩
  simp only [List.mem_cons, List.not_mem_nil, or_false, or_self] at hr
  subst hr
  exact get_wf

end FreeCoAP.Proxy
