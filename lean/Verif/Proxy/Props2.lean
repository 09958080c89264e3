import Verif.Proxy.LemmasRecv

/-!
# Properties of a connection of the proxy: receiving requests
-/

namespace FreeCoAP.Proxy

open FreeCoAP.DataBuf (Buf space put consume expand slice content Inv)
open FreeCoAP.Http (HMsg RawMsg)

/-! ## C64: requests are read intact from the stream -/

/-- C64: whatever the segments in which well-formed requests arrive, once all their bytes have been read, exactly these requests have been
received, in order. -/
def C64_statement : Prop :=
  ∀ (W : Nat) (b : Buf) (rs : List RawMsg) (es : List In) (ms : List HMsg), 2 * MAX + 1 < W → DataBuf.create W BUF MAX true = .ok b →
    (∀ r ∈ rs, r.WF ∧ r.text.length ≤ LIMIT) → (∀ e ∈ es, e.Ample ∧ e.Some) →
    recvs W (es.length + 1) b (texts rs) es = .ok (ms, .waiting, []) → ms = rs.map RawMsg.msg

theorem create_room {W : Nat} {b : Buf} (hW : 2 * MAX + 1 < W) (h : DataBuf.create W BUF MAX true = .ok b) : Room b ∧ content b = [] := by
  obtain ⟨hi, hs, hc⟩ := DataBuf.create_inv hW h
  have hl := DataBuf.content_length hi
  rw [hc] at hl
  exact ⟨⟨hi, by rw [hs]; decide, by rw [hs, ← hl]; decide⟩, hc⟩

/-- Why receiving stopped: nothing more has happened, the time ran out, the stream ended, there was an error, or a request is too long. -/
def Cause (rs : List RawMsg) (es : List In) (s' : Bytes) : Recv → Prop
  | .msg _ => False
  | .waiting => True
  | .timedOut => .timeout ∈ es
  | .closed => s' = [] ∨ ∃ e ∈ es, ¬ e.Some
  | .failed e => .selectError e ∈ es ∨ .readError ∈ es ∧ e = .EIO ∨ e = .EINVAL ∧ ∃ r ∈ rs, LIMIT < r.text.length

theorem recv_end {W : Nat} {b : Buf} : ∀ (es : List In),
    ∃ res, (∃ b' es', recv W b [] es = .ok (res, b', [], es')) ∧ ∀ rs, Cause rs es [] res
  | [] => ⟨_, ⟨_, _, rfl⟩, fun _ => trivial⟩
  | .timeout :: es => ⟨_, ⟨_, _, rfl⟩, fun _ => List.mem_cons_self ..⟩
  | .selectError e :: es => ⟨_, ⟨_, _, rfl⟩, fun _ => .inl (List.mem_cons_self ..)⟩
  | .readError :: es => ⟨_, ⟨_, _, rfl⟩, fun _ => .inr (.inl ⟨List.mem_cons_self .., rfl⟩)⟩
  | .data k mem fresh :: es => by
    refine ⟨.closed, ⟨b, es, ?_⟩, fun _ => .inl rfl⟩
    unfold recv
    rw [List.take_nil]
    rfl

theorem recvs_ok {W : Nat} (hW : 2 * MAX + 1 < W) {u : Bytes} : ∀ (fuel : Nat) (rs : List RawMsg) (b : Buf) (s : Bytes) (es : List In),
    Room b → (∀ r ∈ rs, r.WF) → (∀ e ∈ es, e.Ample) → content b ++ s ++ u = texts rs →
    ∃ k res s', recvs W fuel b s es = .ok ((rs.take k).map RawMsg.msg, res, s') ∧ Cause rs es s' res
  | 0, rs, b, s, es, hb, hr, he, hs => ⟨0, _, _, rfl, trivial⟩
  | fuel + 1, [], b, s, es, hb, hr, he, hs => by
    have hs0 : s = [] := by
      have : content b ++ s ++ u = [] := hs
      simp only [List.append_eq_nil_iff] at this
      exact this.1.2
    subst hs0
    obtain ⟨res, ⟨b', es', e⟩, hc⟩ := recv_end (W := W) (b := b) es
    have := hc []
    unfold recvs
    rw [e]
    cases res with
    | msg m => exact this.elim
    | _ => exact ⟨0, _, _, rfl, this⟩
  | fuel + 1, r :: rs, b, s, es, hb, hr, he, hs => by
    have hs' : content b ++ s ++ u = r.text ++ texts rs := hs
    obtain ⟨res, b', s', es', e, hcame⟩ := recv_came hW (hr r (List.mem_cons_self ..)) es b s hb he hs'
    unfold recvs
    rw [e]
    cases hcame with
    | msg h1 h2 h3 h4 h5 =>
      obtain ⟨c, rfl⟩ := h4
      obtain ⟨k, res, s2, e2, hc⟩ := recvs_ok hW fuel rs b' s' es' h1 (fun r h => hr r (List.mem_cons_of_mem _ h))
        (fun e h => he e (List.mem_append_right _ h)) h2
      dsimp only
      rw [e2]
      refine ⟨k + 1, res, s2, rfl, ?_⟩
      cases res with
      | msg m => exact hc.elim
      | waiting => trivial
      | timedOut => exact List.mem_append_right _ hc
      | closed =>
        rcases hc with hc | ⟨e, he, hc⟩
        · exact .inl hc
        · exact .inr ⟨e, List.mem_append_right _ he, hc⟩
      | failed x =>
        rcases hc with hc | ⟨hc, hx⟩ | ⟨hx, q, hq, hc⟩
        · exact .inl (List.mem_append_right _ hc)
        · exact .inr (.inl ⟨List.mem_append_right _ hc, hx⟩)
        · exact .inr (.inr ⟨hx, q, List.mem_cons_of_mem _ hq, hc⟩)
    | waiting h1 h2 h3 h4 => exact ⟨0, _, _, rfl, trivial⟩
    | timedOut h1 => exact ⟨0, _, _, rfl, h1⟩
    | closed h1 h2 =>
      refine ⟨0, _, _, rfl, ?_⟩
      rcases h2 with ⟨h2, -⟩ | h2
      · exact .inl h2
      · exact .inr h2
    | failed h1 =>
      refine ⟨0, _, _, rfl, ?_⟩
      rcases h1 with h1 | h1 | ⟨hx, h1⟩
      · exact .inl h1
      · exact .inr (.inl h1)
      · exact .inr (.inr ⟨hx, r, List.mem_cons_self .., h1⟩)

/-- C64, the first part: of a stream of well-formed requests (of which `u` has not been sent yet), whatever the segments, the requests that are
received are the first ones in order, each as it was sent; and receiving does not end without a cause: in particular, requests of up to
32641 bytes are never too long. -/
theorem C64_order_partial {W : Nat} {b : Buf} {rs : List RawMsg} {s u : Bytes} {es : List In} (hW : 2 * MAX + 1 < W)
    (hb : DataBuf.create W BUF MAX true = .ok b) (hr : ∀ r ∈ rs, r.WF) (he : ∀ e ∈ es, e.Ample) (hs : s ++ u = texts rs) (fuel : Nat) :
    ∃ k res s', recvs W fuel b s es = .ok ((rs.take k).map RawMsg.msg, res, s') ∧ Cause rs es s' res := by
  obtain ⟨h1, h2⟩ := create_room hW hb
  exact recvs_ok hW fuel rs b s es h1 hr he (by rw [h2, List.nil_append]; exact hs)

/-- Requests that are sent one at a time, each after the one before has been received, with the events while it is awaited: what
is received. -/
def turns (W : Nat) : Buf → List (Bytes × List In) → Out (List Recv)
  | _, [] => .ok []
  | b, (s, es) :: l => do
    let (r, b, _, _) ← recv W b s es
    let rs ← turns W b l
    pure (r :: rs)

theorem recv_live {W : Nat} (hW : 2 * MAX + 1 < W) {r : RawMsg} (hr : r.WF) (hl : r.text.length ≤ LIMIT) {b : Buf} (hb : Room b)
    (hc : content b = []) {es : List In} (he : ∀ e ∈ es, e.Ample ∧ e.Some) (hes : r.text.length ≤ es.length) :
    ∃ b' s' es', recv W b r.text es = .ok (.msg r.msg, b', s', es') ∧ Room b' ∧ content b' = [] := by
  have hpos : 0 < r.text.length := (Http.C43_inside (Http.C43_wellformed_partial (mem := fun _ => true) (fun _ => rfl) hr [])).1
  obtain ⟨res, b', s', es', e, hcame⟩ := recv_came hW hr (rest := []) (u := []) es b r.text hb (fun e h => (he e h).1) (by simp [hc])
  cases hcame with
  | msg h1 h2 h3 h4 h5 =>
    simp only [List.append_eq_nil_iff] at h2
    exact ⟨b', s', es', e, h1, h2.1.1⟩
  | waiting h1 h2 h3 h4 =>
    exfalso
    have hlen : (content b').length + s'.length = r.text.length := by
      have := congrArg List.length h1
      simp only [List.append_nil, List.length_append] at this
      exact this
    rcases h3 with h3 | h3
    · rcases h4 with rfl | h4
      · simp only [List.length_nil] at hes
        omega
      · omega
    · exact h3 (fun e h => (he e h).2)
  | timedOut h1 => exact ((he _ h1).2 : False).elim
  | closed h1 h2 =>
    exfalso
    rcases h2 with ⟨rfl, h2⟩ | ⟨e, h2, h3⟩
    · have hlen : (content b').length = r.text.length := by
        have := congrArg List.length h1
        simp only [List.append_nil] at this
        exact this
      rcases h2 with ⟨-, h2⟩ | h2
      · rw [← h2] at hpos
        exact absurd hpos (by decide)
      · omega
    · exact h3 (he e h2).2
  | failed h1 =>
    rcases h1 with h1 | ⟨h1, -⟩ | ⟨-, h1⟩
    · exact ((he _ h1).2 : False).elim
    · exact ((he _ h1).2 : False).elim
    · omega

theorem turns_ok {W : Nat} (hW : 2 * MAX + 1 < W) : ∀ (l : List (RawMsg × List In)) (b : Buf), Room b → content b = [] →
    (∀ p ∈ l, p.1.WF ∧ p.1.text.length ≤ LIMIT ∧ (∀ e ∈ p.2, e.Ample ∧ e.Some) ∧ p.1.text.length ≤ p.2.length) →
    turns W b (l.map (fun p => (p.1.text, p.2))) = .ok (l.map (fun p => .msg p.1.msg))
  | [], b, _, _, _ => rfl
  | (r, es) :: l, b, hb, hc, h => by
    obtain ⟨h1, h2, h3, h4⟩ := h (r, es) (List.mem_cons_self ..)
    obtain ⟨b', s', es', e, hb', hc'⟩ := recv_live hW h1 h2 hb hc h3 h4
    have := turns_ok hW l b' hb' hc' (fun p hp => h p (List.mem_cons_of_mem _ hp))
    simp only [List.map_cons]
    unfold turns
    rw [e, Out.bind_ok]
    dsimp only
    rw [this]
    rfl

/-- C64, the second part: requests of up to 32641 bytes that are sent one at a time are all received, in whatever segments each of them
arrives. -/
theorem C64_turns_partial {W : Nat} {b : Buf} {l : List (RawMsg × List In)} (hW : 2 * MAX + 1 < W)
    (hb : DataBuf.create W BUF MAX true = .ok b)
    (h : ∀ p ∈ l, p.1.WF ∧ p.1.text.length ≤ LIMIT ∧ (∀ e ∈ p.2, e.Ample ∧ e.Some) ∧ p.1.text.length ≤ p.2.length) :
    turns W b (l.map (fun p => (p.1.text, p.2))) = .ok (l.map (fun p => .msg p.1.msg)) :=
  turns_ok hW l b (create_room hW hb).1 (create_room hW hb).2 h

/-- An event with everything there is. -/
def arrival (k : Nat) : In := .data k (fun _ => true) (fun n => some (List.replicate n 0x55))

theorem arrival_ok {k : Nat} (h : 0 < k) : (arrival k).Ample ∧ (arrival k).Some :=
  ⟨⟨fun _ => rfl, fun n => ⟨_, rfl, List.length_replicate⟩⟩, h⟩

/-- A request without a body. -/
def short : RawMsg := ⟨str "GET", str "coap://h:1/", str "HTTP/1.1", [], .none⟩

theorem short_wf : short.WF := by
  refine ⟨by decide, by decide, by decide, by simp [short], ⟨?_, .inl ?_⟩, by decide⟩
  · rintro ⟨h, hh, -⟩
    simp [short] at hh
  · intro h hh
    simp [short] at hh

/-- The hypotheses are met by two requests that arrive byte by byte. -/
example : ∀ p ∈ [(short, List.replicate 28 (arrival 1)), (short, List.replicate 30 (arrival 5))],
    p.1.WF ∧ p.1.text.length ≤ LIMIT ∧ (∀ e ∈ p.2, e.Ample ∧ e.Some) ∧ p.1.text.length ≤ p.2.length := by
  intro p hp
  have hl : short.text.length = 28 := by decide
  simp only [List.mem_cons, List.not_mem_nil, or_false] at hp
  rcases hp with rfl | rfl
  all_goals
    refine ⟨short_wf, by rw [hl]; decide, fun e he => ?_, by rw [hl, List.length_replicate]; decide⟩
    rw [List.eq_of_mem_replicate he]
    exact arrival_ok (by decide)

/-- C64 fails: of two requests that arrive together, the second is in the buffer but is not looked at until more data arrives: the
connection waits for the client, which waits for the response. -/
theorem C64_violated : ¬ C64_statement := by
  intro h
  have := h (2 ^ 32) ⟨0, BUF, MAX, List.replicate 4097 0⟩ [short, short] [arrival 100] [short.msg] (by decide) rfl
    (fun r hr => by
      simp only [List.mem_cons, List.not_mem_nil, or_false, or_self] at hr
      subst hr
      exact ⟨short_wf, by decide +kernel⟩)
    (fun e he => by
      simp only [List.mem_cons, List.not_mem_nil, or_false] at he
      subst he
      exact arrival_ok (by decide))
    (by decide +kernel)
  exact absurd (congrArg List.length this) (by decide)

end FreeCoAP.Proxy
