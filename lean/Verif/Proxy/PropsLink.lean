import Verif.Proxy.ModelLink
import Verif.Proxy.Props2

/-! # C95: a request that has arrived is received -/

namespace FreeCoAP.Proxy

open FreeCoAP.DataBuf (Buf space put consume expand slice content Inv)
open FreeCoAP.Http (HMsg RawMsg)

/-- The allocators work. -/
def Plenty (x : (Nat → Bool) × (Nat → Option Bytes)) : Prop := (∀ n, x.1 n = true) ∧ ∀ n, ∃ block, x.2 n = some block ∧ block.length = n

/-- C95: a well-formed request that has arrived completely, in whatever records, at a connection that waits for it, is received. -/
def C95_statement : Prop :=
  ∀ (W : Nat) (b : Buf) (r : RawMsg) (recs : List Bytes) (rounds : List ((Nat → Bool) × (Nat → Option Bytes))), 2 * MAX + 1 < W →
    DataBuf.create W BUF MAX true = .ok b → r.WF → r.text.length ≤ LIMIT → recs.flatten = r.text → (∀ x ∈ recs, x ≠ []) →
    (∀ x ∈ rounds, Plenty x) → r.text.length ≤ rounds.length → ∃ b' l', recvOn W rounds b ⟨[], recs⟩ = .ok (.msg r.msg, b', l')

/-- The buffer between reads: there are at least 128 bytes of space. -/
structure Roomy (b : Buf) : Prop extends Room b where
  space : b.count + 128 ≤ b.size

/-- One round with more bytes of the request. -/
theorem recv_one {W : Nat} (hW : 2 * MAX + 1 < W) {r : RawMsg} (hr : r.WF) (hl : r.text.length ≤ LIMIT) {b : Buf} (hb : Roomy b)
    {x : (Nat → Bool) × (Nat → Option Bytes)} (hx : Plenty x) {d u : Bytes} (hd : d ≠ []) (hds : d.length ≤ b.size - b.count)
    (hs : content b ++ d ++ u = r.text) :
    (u = [] ∧ ∃ b', recv W b d [.data d.length x.1 x.2] = .ok (.msg r.msg, b', [], []) ∧ Room b' ∧ content b' = []) ∨
    (u ≠ [] ∧ ∃ b', recv W b d [.data d.length x.1 x.2] = .ok (.waiting, b', [], []) ∧ Roomy b' ∧ content b' = content b ++ d) := by
  obtain ⟨hmem, hfr⟩ := hx
  have hsp : space W b = b.size - b.count := DataBuf.space_eq hW hb.inv
  have hbs := hb.size
  have hroom := hb.room
  simp only [IsSize, List.mem_cons, List.not_mem_nil, or_false] at hbs
  unfold recv
  rw [hsp]
  dsimp only
  rw [Nat.min_eq_left hds, List.take_length, if_neg hd]
  obtain ⟨b1, e1, i1, s1, c1⟩ := DataBuf.put_ok d hW hb.inv
  have hmin : min d.length (b.size - b.count) = d.length := by omega
  rw [hmin, List.take_length] at c1
  rw [hmin] at e1
  have hl1 := DataBuf.content_length i1
  have hc1 : b1.count = b.count + d.length := by rw [← hl1, c1, List.length_append, DataBuf.content_length hb.inv]
  rw [e1, Out.bind_ok]
  dsimp only
  rw [slice_content i1, Out.bind_ok, c1, List.drop_length]
  by_cases hu : u = []
  · left
    refine ⟨hu, ?_⟩
    subst hu
    rw [List.append_nil] at hs
    rw [hs]
    have hw := Http.C43_wellformed_partial hmem hr []
    rw [List.append_nil] at hw
    rw [hw]
    dsimp only
    obtain ⟨b2, e2, i2, s2, c2, -⟩ := DataBuf.consume_ok r.text.length hW i1
    rw [e2, Out.bind_ok]
    have hc2 : content b2 = [] := by rw [c2, c1, hs, List.drop_length]
    have hl2 := DataBuf.content_length i2
    rw [hc2] at hl2
    exact ⟨b2, rfl, ⟨i2, by rw [s2, s1]; exact hb.size, by rw [s2, s1, ← hl2]; simp; omega⟩, hc2⟩
  · right
    refine ⟨hu, ?_⟩
    have hlt : (content b ++ d).length < r.text.length := by
      rw [← hs, List.length_append (bs := u)]
      have := List.length_pos_iff.2 hu
      omega
    have hm : content b ++ d = r.text.take (content b ++ d).length := by rw [← hs, List.take_left]
    have hpe := Http.C43_incomplete_partial hmem hr hlt
    rw [← hm] at hpe
    rw [hpe]
    dsimp only
    rw [DataBuf.space_eq hW i1]
    have hcl : (content b ++ d).length = b1.count := by rw [← c1, hl1]
    by_cases hsmall : b1.size - b1.count < MIN_SPACE
    · rw [if_pos hsmall]
      unfold MIN_SPACE at hsmall
      have hexp := DataBuf.expand_ok x.2 (fun n block h => by
        obtain ⟨bl, e2, h2⟩ := hfr n
        rw [h] at e2
        injection e2 with e2
        rw [e2]; exact h2) hW i1
      have hbig : ¬ 2 * b1.size > MAX := by
        unfold LIMIT at hl
        unfold MAX
        omega
      rw [if_neg hbig] at hexp
      obtain ⟨bl, e2, h2⟩ := hfr (2 * b1.size + 1)
      rw [if_neg (by rw [e2]; simp)] at hexp
      obtain ⟨b2, e3, i2, s2, c2⟩ := hexp
      rw [e3]
      have := i1.count
      have hl2 := DataBuf.content_length i2
      rw [c2] at hl2
      unfold MAX at hbig
      refine ⟨b2, rfl, ⟨⟨i2, ?_, ?_⟩, ?_⟩, by rw [c2, c1]⟩
      · simp only [IsSize, List.mem_cons, List.not_mem_nil, or_false]
        omega
      · omega
      · omega
    · rw [if_neg hsmall]
      unfold MIN_SPACE at hsmall
      exact ⟨b1, rfl, ⟨⟨i1, by rw [s1]; exact hb.size, by omega⟩, by omega⟩, c1⟩

/-- The records that are read find space: they are short, or the whole request is. -/
def Fits (r : RawMsg) (recs : List Bytes) : Prop := (∀ x ∈ recs, x.length ≤ 128) ∨ r.text.length ≤ 4096

theorem recvOn_ok {W : Nat} (hW : 2 * MAX + 1 < W) {r : RawMsg} (hr : r.WF) (hl : r.text.length ≤ LIMIT) :
    ∀ (recs : List Bytes) (rounds : List ((Nat → Bool) × (Nat → Option Bytes))) (b : Buf), Roomy b → recs ≠ [] → (∀ x ∈ recs, x ≠ []) →
    content b ++ recs.flatten = r.text → Fits r recs → (∀ x ∈ rounds, Plenty x) → recs.length ≤ rounds.length →
    ∃ b', recvOn W rounds b ⟨[], recs⟩ = .ok (.msg r.msg, b', ⟨[], []⟩) ∧ Room b' ∧ content b' = []
  | [], _, _, _, h0, _, _, _, _, _ => absurd rfl h0
  | x :: recs, [], _, _, _, _, _, _, _, hn => by simp at hn
  | x :: recs, y :: rounds, b, hb, _, hne, hs, hf, hp, hn => by
    have hsp : space W b = b.size - b.count := DataBuf.space_eq hW hb.inv
    have h1 := hb.space
    have hfit : x.length ≤ b.size - b.count := by
      rcases hf with hf | hf
      · have := hf x List.mem_cons_self
        omega
      · have h2 := DataBuf.content_length hb.inv
        have h3 := congrArg List.length hs
        simp only [List.flatten_cons, List.length_append] at h3
        have h4 := hb.size
        simp only [IsSize, List.mem_cons, List.not_mem_nil, or_false] at h4
        omega
    rw [List.flatten_cons, ← List.append_assoc] at hs
    obtain ⟨mem, fresh⟩ := y
    unfold recvOn
    rw [if_neg (by simp)]
    have hrd : (⟨[], x :: recs⟩ : Link).read (space W b) = (x, ⟨[], recs⟩) := by
      show (x.take _, (⟨x.drop _, recs⟩ : Link)) = _
      rw [hsp, List.take_of_length_le hfit, List.drop_of_length_le hfit]
    rw [hrd]
    dsimp only
    rcases recv_one hW hr hl hb (hp _ List.mem_cons_self) (hne x List.mem_cons_self) hfit hs with ⟨g0, b', g1, g2, g3⟩ | ⟨g0, b', g1, g2, g3⟩
    · rw [g1, Out.bind_ok]
      have hrn : recs = [] := by
        cases recs with
        | nil => rfl
        | cons z recs =>
          rw [List.flatten_cons, List.append_eq_nil_iff] at g0
          exact absurd g0.1 (hne z (by simp))
      subst hrn
      exact ⟨b', rfl, g2, g3⟩
    · rw [g1, Out.bind_ok]
      refine recvOn_ok hW hr hl recs rounds b' g2 (fun e => g0 (by rw [e]; rfl)) (fun z hz => hne z (List.mem_cons_of_mem _ hz)) (by rw [g3]; exact hs) ?_
        (fun z hz => hp z (List.mem_cons_of_mem _ hz)) (by simpa using hn)
      rcases hf with hf | hf
      · exact .inl (fun z hz => hf z (List.mem_cons_of_mem _ hz))
      · exact .inr hf

/-- C95, for requests that fit into the buffer as it is at first, in whatever records, and for longer ones in records of up to 128 bytes. Missing from the
full claim: see `C95_violated`. -/
theorem C95_arrived_partial {W : Nat} {b : Buf} {r : RawMsg} {recs : List Bytes} {rounds : List ((Nat → Bool) × (Nat → Option Bytes))}
    (hW : 2 * MAX + 1 < W) (hb : DataBuf.create W BUF MAX true = .ok b) (hr : r.WF) (hl : r.text.length ≤ LIMIT) (hs : recs.flatten = r.text)
    (hne : ∀ x ∈ recs, x ≠ []) (hp : ∀ x ∈ rounds, Plenty x) (hn : r.text.length ≤ rounds.length)
    (hf : (∀ x ∈ recs, x.length ≤ 128) ∨ r.text.length ≤ 4096) :
    ∃ b' l', recvOn W rounds b ⟨[], recs⟩ = .ok (.msg r.msg, b', l') := by
  obtain ⟨h1, h2⟩ := create_room hW hb
  have hpos : 0 < r.text.length := (Http.C43_inside (Http.C43_wellformed_partial (mem := fun _ => true) (fun _ => rfl) hr [])).1
  have hcl := DataBuf.content_length h1.inv
  rw [h2] at hcl
  have hsz := h1.size
  simp only [IsSize, List.mem_cons, List.not_mem_nil, or_false] at hsz
  have hlen : ∀ l : List Bytes, (∀ x ∈ l, x ≠ []) → l.length ≤ l.flatten.length := by
    intro l
    induction l with
    | nil => intro; exact Nat.le_refl _
    | cons x l ih =>
      intro h
      rw [List.flatten_cons, List.length_append, List.length_cons]
      have := List.length_pos_iff.2 (h x List.mem_cons_self)
      have := ih (fun z hz => h z (List.mem_cons_of_mem _ hz))
      omega
  obtain ⟨b', e, -, -⟩ := recvOn_ok hW hr hl recs rounds b ⟨h1, by rw [← hcl]; simp; omega⟩ (fun e => by rw [← hs, e] at hpos; simp at hpos) hne
    (by rw [h2]; exact hs) hf hp (by have := hlen recs hne; rw [hs] at this; omega)
  exact ⟨b', _, e⟩

/-- A request of more than 4096 bytes that arrives in one record is never received: what does not fit into the buffer stays with GnuTLS, where `select` does
not see it, and the connection times out. -/
theorem C95_late {W : Nat} {b : Buf} {r : RawMsg} {rounds : List ((Nat → Bool) × (Nat → Option Bytes))}
    (hW : 2 * MAX + 1 < W) (hb : DataBuf.create W BUF MAX true = .ok b) (hr : r.WF) (hl : r.text.length ≤ LIMIT) (hlong : 4096 < r.text.length)
    (hp : ∀ x ∈ rounds, Plenty x) (hn : r.text.length ≤ rounds.length) :
    ∃ b', recvOn W rounds b ⟨[], [r.text]⟩ = .ok (.timedOut, b', ⟨r.text.drop 4096, []⟩) := by
  obtain ⟨h1, h2⟩ := create_room hW hb
  obtain ⟨hi, hsz, -⟩ := DataBuf.create_inv hW hb
  have hcl := DataBuf.content_length h1.inv
  rw [h2] at hcl
  have hc0 : b.count = 0 := hcl.symm
  have hsize : b.size = 4096 := hsz
  have hsp : space W b = 4096 := by rw [DataBuf.space_eq hW h1.inv, hc0, hsize]
  match rounds, hp, hn with
  | [], _, hn => exact absurd hn (by simp only [List.length_nil]; omega)
  | [y], _, hn => exact absurd hn (by simp only [List.length_cons, List.length_nil]; omega)
  | (mem, fresh) :: (mem', fresh') :: rounds, hp, hn =>
    have hd : (r.text.take 4096).length = 4096 := by rw [List.length_take]; omega
    rcases recv_one hW hr hl (b := b) ⟨h1, by omega⟩ (hp _ List.mem_cons_self) (d := r.text.take 4096) (u := r.text.drop 4096)
      (fun e => by rw [e] at hd; simp at hd) (by omega) (by rw [h2, List.nil_append, List.take_append_drop]) with ⟨g0, -⟩ | ⟨-, b', g1, -, -⟩
    · have := congrArg List.length g0
      rw [List.length_drop, List.length_nil] at this
      omega
    · refine ⟨b', ?_⟩
      unfold recvOn
      rw [if_neg (by simp), hsp, show (⟨[], [r.text]⟩ : Link).read 4096 = (r.text.take 4096, ⟨r.text.drop 4096, []⟩) from rfl]
      dsimp only
      rw [g1, Out.bind_ok]
      unfold recvOn
      rw [if_pos rfl]

/-- An allocator that works. -/
def plenty : (Nat → Bool) × (Nat → Option Bytes) := (fun _ => true, fun n => some (List.replicate n 0x55))

theorem plenty_ok : Plenty plenty := ⟨fun _ => rfl, fun _ => ⟨_, rfl, List.length_replicate⟩⟩

/-- The hypotheses are met by a request in two records. -/
example : ∃ b' l', recvOn (2 ^ 32) (List.replicate 28 plenty) ⟨0, BUF, MAX, List.replicate 4097 0⟩ ⟨[], [short.text.take 5, short.text.drop 5]⟩ =
    .ok (.msg short.msg, b', l') :=
  C95_arrived_partial (by decide) rfl short_wf (by decide +kernel) (by simp) (by decide +kernel)
    (fun x hx => by rw [List.eq_of_mem_replicate hx]; exact plenty_ok) (by decide +kernel) (.inr (by decide +kernel))

/-- A request with a long path. -/
def long (n : Nat) : RawMsg := ⟨str "GET", str "coap://h:1/" ++ List.replicate n 97, str "HTTP/1.1", [], .none⟩

theorem long_text (n : Nat) : (long n).text = (str "GET" ++ str " " ++ str "coap://h:1/") ++ List.replicate n 97 ++
    (str " " ++ str "HTTP/1.1" ++ Http.CRLF ++ Http.headersText [] ++ Http.CRLF ++ Http.RawBody.none.text) := by
  simp only [long, RawMsg.text, List.append_assoc]

theorem long_length (n : Nat) : (long n).text.length = n + 28 := by
  rw [long_text, List.length_append, List.length_append, List.length_replicate]
  show 15 + n + 13 = n + 28
  omega

theorem long_wf (n : Nat) : (long n).WF := by
  have hr : ∀ x : Byte, x ≠ 97 → x ∉ List.replicate n (97 : Byte) := fun x hx h => hx (List.eq_of_mem_replicate h)
  refine ⟨?_, ⟨?_, ?_, ?_⟩, ?_, by simp [long], ⟨?_, .inl ?_⟩, ?_⟩
  · show str "GET" ≠ [] ∧ (0x20 : Byte) ∉ str "GET" ∧ (0x0D : Byte) ∉ str "GET"
    decide
  · show str "coap://h:1/" ++ List.replicate n 97 ≠ []
    rw [Ne, List.append_eq_nil_iff]
    exact fun h => absurd h.1 (by decide)
  · show (0x20 : Byte) ∉ str "coap://h:1/" ++ List.replicate n 97
    rw [List.mem_append, not_or]
    exact ⟨by decide, hr _ (by decide)⟩
  · show (0x0D : Byte) ∉ str "coap://h:1/" ++ List.replicate n 97
    rw [List.mem_append, not_or]
    exact ⟨by decide, hr _ (by decide)⟩
  · show str "HTTP/1.1" ≠ [] ∧ (0x0D : Byte) ∉ str "HTTP/1.1"
    decide
  · rintro ⟨h, hh, -⟩
    simp [long] at hh
  · intro h hh
    simp [long] at hh
  · rw [long_text, List.mem_append, List.mem_append, not_or, not_or]
    exact ⟨⟨by decide, hr _ (by decide)⟩, by decide⟩

/-- C95 fails: a request of 5028 bytes in one record. -/
theorem C95_violated : ¬ C95_statement := by
  intro h
  have hp : ∀ x ∈ List.replicate 5028 plenty, Plenty x := fun x hx => by rw [List.eq_of_mem_replicate hx]; exact plenty_ok
  have hn : (long 5000).text.length ≤ (List.replicate 5028 plenty).length := by rw [long_length, List.length_replicate]; exact Nat.le_refl _
  have hl : (long 5000).text.length ≤ LIMIT := by rw [long_length]; decide
  obtain ⟨b', l', e⟩ := h (2 ^ 32) _ (long 5000) [(long 5000).text] _ (by decide) rfl (long_wf 5000) hl (by simp)
    (fun x hx => by
      rw [List.mem_singleton.1 hx]
      intro e
      have := congrArg List.length e
      rw [long_length] at this
      cases this) hp hn
  obtain ⟨b'', e2⟩ := C95_late (W := 2 ^ 32) (by decide) rfl (long_wf 5000) hl (by rw [long_length]; decide) hp hn
  rw [e2] at e
  cases e

end FreeCoAP.Proxy
