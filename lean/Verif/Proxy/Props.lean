import Verif.Proxy.LemmasSend
import Verif.Http.Props

/-!
# Properties of a connection of the proxy: sending responses
-/

namespace FreeCoAP.Proxy

open FreeCoAP.DataBuf (Buf space put consume expand slice)
open FreeCoAP.Http (HMsg)

/-! ## C50: the proxy sends the response it generated -/

/-- C50: for every history of responses on a connection, the bytes sent to the HTTP client for each of them are those of its text in order,
and all of them if sending succeeds, whatever the sizes of the writes; responses of up to the maximum size are meant. -/
def C50_statement : Prop :=
  ∀ (W : Nat) (b : Buf) (js : List Job), 2 * MAX + 1 < W → DataBuf.create W BUF MAX true = .ok b → (∀ j ∈ js, ∀ i, Sized (j.fresh i)) →
    ∃ rs, sends W b js = .ok rs ∧ rs.length = js.length ∧ ∀ p ∈ js.zip rs, (Http.text p.1.m).length ≤ 32768 →
      (∃ rest, Http.text p.1.m = p.2.1 ++ rest) ∧ (p.2.2 = .ok → p.2.1 = Http.text p.1.m)

theorem create_empty {W : Nat} {b : Buf} (hW : 2 * MAX + 1 < W) (h : DataBuf.create W BUF MAX true = .ok b) : Empty b := by
  have e : (BUF + 1) % W = BUF + 1 := Nat.mod_eq_of_lt (by unfold MAX at hW; unfold BUF; omega)
  unfold DataBuf.create at h
  rw [if_neg (by decide), if_pos rfl, e] at h
  injection h with h
  subst h
  exact ⟨rfl, rfl, by rw [List.length_replicate], by decide⟩

/-- What may be written for a response, and what the result means. -/
structure Written (j : Job) (out : Bytes) (r : Sent) : Prop where
  /-- The bytes of the text in order. -/
  part : ¬ IsSize (Http.text j.m).length → ∃ rest, Http.text j.m = out ++ rest
  /-- All of them. -/
  all : ¬ IsSize (Http.text j.m).length → r = .ok → out = Http.text j.m
  /-- A text as long as the buffer can have a NUL in the place of its last byte. -/
  edge : r = .ok → out = Http.text j.m ∨ IsSize (Http.text j.m).length ∧ out = (Http.text j.m).dropLast ++ [0]
  /-- A text that is too long is not sent at all. -/
  long : 32768 < (Http.text j.m).length → out = [] ∧ (r = .failed .EINVAL ∨ r = .failed .ENOMEM)
  /-- With memory and a socket that takes bytes, every response up to the maximum size is sent. -/
  live : (Http.text j.m).length ≤ 32768 → (∀ i n, j.fresh i n ≠ none) → (∀ w ∈ j.ws, ∃ k, w = .wrote (k + 1)) →
    (Http.text j.m).length ≤ j.ws.length → r = .ok

theorem send_written {W : Nat} (hW : 2 * MAX + 1 < W) (j : Job) (hf : ∀ i, Sized (j.fresh i)) {b : Buf} (h : Empty b) :
    ∃ out r b', send W j.m j.fresh j.ws b = .ok (out, r, b') ∧ Empty b' ∧ Written j out r := by
  rcases send_ok hW j.m hf j.ws h with ⟨b', e, hb', hl, hs', -⟩ | ⟨b', e, he, hb', -, hx⟩
  · have hb := hb'.size.bounds
    refine ⟨_, _, b', e, hb', ?_⟩
    have hne : ([] : Bytes) ++ stored b'.size (Http.text j.m) ≠ [] := by
      rw [List.nil_append]
      intro h0
      have := stored_length (t := Http.text j.m) (size := b'.size) (by omega)
      rw [h0] at this
      exact text_ne_nil j.m (List.length_eq_zero_iff.1 this.symm)
    have hw := writeFull_ok j.ws [] (stored b'.size (Http.text j.m)) hne
    rw [List.nil_append] at hw
    have hst : ¬ IsSize (Http.text j.m).length → stored b'.size (Http.text j.m) = Http.text j.m := by
      intro hn
      unfold stored
      rw [if_neg]
      intro e2
      exact hn (e2 ▸ hb'.size)
    refine ⟨fun hn => ?_, fun hn hr => ?_, fun hr => ?_, fun hm => ?_, fun _ _ hws hlen => ?_⟩
    · rw [hst hn] at hw ⊢; exact hw.1
    · rw [hst hn] at hw hr ⊢; exact hw.2.1 hr
    · rw [hw.2.1 hr]
      unfold stored
      split
      · rename_i e2
        exact .inr ⟨e2 ▸ hb'.size, rfl⟩
      · exact .inl rfl
    · unfold MAX at hm
      omega
    · refine writeFull_live _ _ _ hne hws ?_
      rw [stored_length (by omega)]
      exact hlen
  · refine ⟨_, _, b', he, hb', fun _ => ⟨_, rfl⟩, fun _ h => (nomatch h), fun h => (nomatch h), fun _ => ⟨rfl, ?_⟩, fun hm hmem _ _ => ?_⟩
    · rcases hx with ⟨rfl, -⟩ | ⟨rfl, -⟩ <;> simp
    · rcases hx with ⟨-, hx⟩ | ⟨-, i, n, hx⟩
      · unfold MAX at hx
        omega
      · exact absurd hx (hmem i n)

theorem sends_written {W : Nat} (hW : 2 * MAX + 1 < W) : ∀ (js : List Job) (b : Buf), Empty b → (∀ j ∈ js, ∀ i, Sized (j.fresh i)) →
    ∃ rs, sends W b js = .ok rs ∧ rs.length = js.length ∧ ∀ p ∈ js.zip rs, Written p.1 p.2.1 p.2.2
  | [], b, h, hf => ⟨[], rfl, rfl, by simp⟩
  | j :: js, b, h, hf => by
    obtain ⟨out, r, b', e, hb', hw⟩ := send_written hW j (hf j (List.mem_cons_self ..)) h
    obtain ⟨rs, e2, hl, hrs⟩ := sends_written hW js b' hb' (fun j h => hf j (List.mem_cons_of_mem _ h))
    refine ⟨(out, r) :: rs, ?_, by simp [hl], ?_⟩
    · unfold sends
      rw [e, Out.bind_ok]
      dsimp only
      rw [e2]
      rfl
    · intro p hp
      rw [List.zip_cons_cons, List.mem_cons] at hp
      rcases hp with rfl | hp
      · exact hw
      · exact hrs p hp

/-- C50 for responses whose text is not exactly as long as one of the sizes of the buffer. Of the others, one byte can be wrong; longer
responses are not sent; sending never leaves the buffer. -/
theorem C50_sent_partial {W : Nat} {b : Buf} {js : List Job} (hW : 2 * MAX + 1 < W) (hb : DataBuf.create W BUF MAX true = .ok b)
    (hf : ∀ j ∈ js, ∀ i, Sized (j.fresh i)) :
    ∃ rs, sends W b js = .ok rs ∧ rs.length = js.length ∧ ∀ p ∈ js.zip rs, Written p.1 p.2.1 p.2.2 :=
  sends_written hW js b (create_empty hW hb) hf

/-- An allocator. -/
def heap : Nat → Option Bytes := fun n => some (List.replicate n 0x55)

theorem heap_sized : Sized heap := by
  intro n block h
  injection h with h
  rw [← h, List.length_replicate]

/-- A response with a body of `n` bytes. -/
def ofBody (n : Nat) : HMsg := ⟨str "HTTP/1.1", str "200", str "OK", [], some (List.replicate n 0x41)⟩

theorem text_ofBody (n : Nat) : Http.text (ofBody n) = str "HTTP/1.1 200 OK\r\n\r\n" ++ List.replicate n 0x41 := by
  unfold Http.text ofBody
  have e : str "HTTP/1.1" ++ str " " ++ str "200" ++ str " " ++ str "OK" ++ Http.CRLF ++
      ([] : List Http.Header).flatMap (fun h => h.name ++ str ": " ++ h.value ++ Http.CRLF) ++ Http.CRLF = str "HTTP/1.1 200 OK\r\n\r\n" := by
    decide
  dsimp only
  rw [e]
  rfl

/-- The socket takes everything at once. -/
def job (n : Nat) : Job := ⟨ofBody n, fun _ => heap, [.wrote (MAX + 1)]⟩

/-- The hypotheses are met by two responses, a long one and a short one. -/
example : DataBuf.create (2 ^ 32) BUF MAX true = .ok ⟨0, BUF, MAX, List.replicate 4097 0⟩ ∧
    (∀ j ∈ [job 10000, job 5], ∀ i, Sized (j.fresh i)) ∧ (∀ j ∈ [job 10000, job 5], ¬ IsSize (Http.text j.m).length) := by
  refine ⟨rfl, ?_, ?_⟩
  · intro j hj i
    simp only [List.mem_cons, List.not_mem_nil, or_false] at hj
    rcases hj with rfl | rfl <;> exact heap_sized
  · intro j hj
    have hlen : (str "HTTP/1.1 200 OK\r\n\r\n").length = 19 := by decide
    simp only [List.mem_cons, List.not_mem_nil, or_false] at hj
    rcases hj with rfl | rfl <;>
    · unfold job
      dsimp only
      rw [text_ofBody, List.length_append, List.length_replicate, hlen]
      decide

theorem sends_one {W : Nat} {j : Job} {b b' : Buf} {out : Bytes} {r : Sent} (e : send W j.m j.fresh j.ws b = .ok (out, r, b')) :
    sends W b [j] = .ok [(out, r)] := by
  unfold sends
  rw [e, Out.bind_ok]
  rfl

/-- C50 fails: a response of 4096 bytes fits in the buffer by the test of the caller, but the generator keeps a place for a NUL, which is sent
in the place of the last byte. -/
theorem C50_violated : ¬ C50_statement := by
  intro h
  have hW : 2 * MAX + 1 < 2 ^ 32 := by decide
  have hlen : (str "HTTP/1.1 200 OK\r\n\r\n").length = 19 := by decide
  have hl : (Http.text (ofBody 4077)).length = 4096 := by
    rw [text_ofBody, List.length_append, List.length_replicate, hlen]
  obtain ⟨rs, e, hlen, hp⟩ := h (2 ^ 32) ⟨0, BUF, MAX, List.replicate 4097 0⟩ [job 4077] hW rfl (by
    intro j hj i
    simp only [List.mem_cons, List.not_mem_nil, or_false] at hj
    subst hj
    exact heap_sized)
  have hE : Empty ⟨0, BUF, MAX, List.replicate 4097 0⟩ := create_empty hW rfl
  have hsb := hE.size.bounds
  have hsz : (⟨0, BUF, MAX, List.replicate 4097 0⟩ : Buf).size = 4096 := rfl
  generalize (⟨0, BUF, MAX, List.replicate 4097 0⟩ : Buf) = b at *
  have hs : fill (2 ^ 32) (ofBody 4077) (fun _ => heap) (MAX + 1) b =
      .ok (.ready 4096 { b with data := Http.shape 4096 (Http.text (ofBody 4077)) (b.data.drop 4096) }) := by
    unfold fill
    rw [hE.space hW, hsz]
    have hd := hE.data
    rw [Http.generate_shape _ (len := 4096) (by decide) (by omega), Out.bind_ok]
    dsimp only
    rw [if_pos (by omega), hl]
    rfl
  have hse : send (2 ^ 32) (ofBody 4077) (fun _ => heap) [.wrote (MAX + 1)] b =
      .ok (stored 4096 (Http.text (ofBody 4077)), .ok, { b with data := Http.shape 4096 (Http.text (ofBody 4077)) (b.data.drop 4096) }) := by
    unfold send
    rw [hs, Out.bind_ok]
    dsimp only
    have hd := hE.data
    have hsl : slice (Http.shape 4096 (Http.text (ofBody 4077)) (b.data.drop 4096)) 0 4096 = .ok (stored 4096 (Http.text (ofBody 4077))) := by
      unfold slice
      rw [if_pos (by rw [Http.shape_length, List.length_drop]; omega), List.drop_zero]
      have := shape_stored (size := 4096) (t := Http.text (ofBody 4077)) (tail := b.data.drop 4096) (by decide) (by omega)
      rw [hl] at this
      rw [this]
    rw [hsl, Out.bind_ok]
    have hl2 : (stored 4096 (Http.text (ofBody 4077))).length = 4096 := by rw [stored_length (by decide), hl]
    generalize stored 4096 (Http.text (ofBody 4077)) = t at *
    cases t with
    | nil => cases hl2
    | cons c t =>
      have e1 : writeFull [Write.wrote (MAX + 1)] [] (c :: t) = (c :: t, .ok) := by
        unfold writeFull
        rw [List.drop_eq_nil_of_le (by rw [hl2]; decide), List.take_of_length_le (by rw [hl2]; decide), List.nil_append]
        unfold writeFull
        rw [if_neg (List.cons_ne_nil _ _)]
      rw [e1]
      rfl
  have he : sends (2 ^ 32) b [job 4077] = .ok [(stored 4096 (Http.text (ofBody 4077)), .ok)] := by
    exact sends_one hse
  rw [he] at e
  injection e with e
  subst e
  have := (hp (job 4077, (stored 4096 (Http.text (ofBody 4077)), .ok)) (by simp) (by
    change (Http.text (ofBody 4077)).length ≤ MAX
    rw [hl]; decide)).2 rfl
  dsimp only at this
  change stored 4096 (Http.text (ofBody 4077)) = Http.text (ofBody 4077) at this
  unfold stored at this
  rw [if_pos hl, text_ofBody] at this
  have := congrArg List.getLast? this
  rw [List.getLast?_concat, List.getLast?_append, show (4077 : Nat) = 4076 + 1 from rfl, List.replicate_succ', List.getLast?_concat] at this
  exact absurd this (by decide)

end FreeCoAP.Proxy
