import Verif.Proxy.SpecReason
import Verif.Proxy.Props

/-! # The connection logs the reason of a failure (C123) -/

namespace FreeCoAP.Proxy.Reason

open FreeCoAP.DataBuf (Buf space put consume expand slice)

/-- C123, in full: the message of a connection that ends gives the outcome and the reason. -/
def C123_statement : Prop :=
  ∀ (W : Nat) (b : Buf) (s : Bytes) (es : List (In × Tls.Io.Code)) (r : Recv) (x : Buf × Bytes × List In),
    recv W b s (es.map (·.1)) = .ok (r, x) → ∃ l, line W b s es = .ok l ∧ Names (es.map (·.2)) r l

/-- Each error of reading and writing has its text. -/
theorem C123_socket (c : Tls.Io.Code) : sockStrerror (value c) = .ok (some (describes c)) := by
  cases c <;> decide

/-- A status has a text if and only if it is one of the 33 of the socket library; the least `int` is the only one for which there is no result. -/
theorem C123_text (error : Int) (hmin : -2 ^ 31 < error) :
    ∃ t, sockStrerror error = .ok t ∧ (t.isSome ↔ -32 ≤ error ∧ error ≤ 0) := by
  unfold sockStrerror
  rw [if_neg (by omega)]
  dsimp only
  by_cases h : -error < 0 ∨ -error ≥ NUM
  · rw [if_pos h]
    unfold NUM at h
    exact ⟨none, rfl, ⟨fun h' => (by cases h'), fun h' => (by exfalso; omega)⟩⟩
  · rw [if_neg h]
    unfold NUM at h
    have hl : (-error).toNat < table.length := by
      have : table.length = 33 := rfl
      omega
    rw [List.getElem?_eq_getElem hl]
    exact ⟨some table[(-error).toNat], rfl, ⟨fun _ => by omega, fun _ => rfl⟩⟩

/-- Each error of the HTTP parser has its text too; but it is not asked for (`C123_violated`). -/
theorem C123_parser (e : Err) (t : String) (h : describesHttp e = some t) : httpStrerror (-(errno e)) = t := by
  cases e <;> simp only [describesHttp, Option.some.injEq, reduceCtorEq] at h <;> subst h <;> decide

/-- None of the texts has a `%`, so that one can be used as a format. -/
theorem C123_format (error : Int) (t : String) (h : sockStrerror error = .ok (some t)) : '%' ∉ t.toList := by
  unfold sockStrerror at h
  split at h
  · cases h
  · dsimp only at h
    split at h
    · cases h
    · split at h
      · rename_i t' ht
        have ht' : t' = t := Option.some.inj (Out.ok.inj h)
        subst ht'
        have hall : ∀ u ∈ table, '%' ∉ u.toList := by decide +kernel
        exact hall _ (List.mem_of_getElem? ht)
      · cases h

/-- C123, partial: every message but that for a text that the HTTP parser refuses gives the outcome and its reason. -/
theorem C123_reason_partial (W : Nat) : ∀ (es : List (In × Tls.Io.Code)) (b : Buf) (s : Bytes) (r : Recv) (x : Buf × Bytes × List In),
    recv W b s (es.map (·.1)) = .ok (r, x) →
    ∃ l, line W b s es = .ok l ∧ (Names (es.map (·.2)) r l ∨ l = .parse "(unknown)" ∧ ∃ e, e ≠ .EAGAIN ∧ r = .failed e)
  | [], b, s, r, x, h => by
    simp only [List.map_nil, recv] at h
    obtain ⟨rfl, -⟩ := Prod.mk.inj (Out.ok.inj h)
    exact ⟨.nothing, rfl, .inl rfl⟩
  | (.timeout, c) :: es, b, s, r, x, h => by
    simp only [List.map_cons, recv] at h
    obtain ⟨rfl, -⟩ := Prod.mk.inj (Out.ok.inj h)
    exact ⟨.timedOut, rfl, .inl rfl⟩
  | (.selectError e, c) :: es, b, s, r, x, h => by
    simp only [List.map_cons, recv] at h
    obtain ⟨rfl, -⟩ := Prod.mk.inj (Out.ok.inj h)
    exact ⟨.select e, rfl, .inl rfl⟩
  | (.readError, c) :: es, b, s, r, x, h => by
    simp only [List.map_cons, recv] at h
    obtain ⟨rfl, -⟩ := Prod.mk.inj (Out.ok.inj h)
    refine ⟨.read (some (describes c)), ?_, .inl ⟨rfl, c, by simp, rfl⟩⟩
    show (sockStrerror (value c) >>= fun t => Out.ok (Line.read t)) = _
    rw [C123_socket c]
    rfl
  | (.data k mem fresh, c) :: es, b, s, r, x, h => by
    have mono : ∀ {r l}, Names (es.map (·.2)) r l → Names (((.data k mem fresh, c) :: es : List (In × Tls.Io.Code)).map (·.2)) r l := by
      intro r l hn
      cases r <;> cases l <;> first
        | exact hn
        | (obtain ⟨he, c', hc', ht⟩ := hn; exact ⟨he, c', List.mem_cons_of_mem _ hc', ht⟩)
    rw [List.map_cons] at h
    unfold recv at h
    unfold line
    dsimp only at h ⊢
    split at h
    · rename_i hd
      rw [if_pos hd]
      obtain ⟨rfl, -⟩ := Prod.mk.inj (Out.ok.inj h)
      exact ⟨.closed, rfl, .inl rfl⟩
    · rename_i hd
      rw [if_neg hd]
      obtain ⟨p, hp, h⟩ := Out.bind_eq_ok.1 h
      obtain ⟨t, ht, h⟩ := Out.bind_eq_ok.1 h
      rw [hp, Out.bind_ok, ht, Out.bind_ok]
      split at h
      · rename_i m n hm
        obtain ⟨q, hq, h⟩ := Out.bind_eq_ok.1 h
        obtain ⟨rfl, -⟩ := Prod.mk.inj (Out.ok.inj h)
        exact ⟨.received, by rw [hm]; dsimp only; rw [hq]; rfl, .inl rfl⟩
      · rename_i hm
        rw [hm]
        dsimp only
        split at h
        · rename_i hs
          rw [if_pos hs]
          split at h
          · rename_i b' hb
            obtain ⟨l, hl, hn⟩ := C123_reason_partial W es _ _ _ _ h
            exact ⟨l, by rw [hb]; exact hl, hn.imp mono fun h => h⟩
          · rename_i e he
            obtain ⟨rfl, -⟩ := Prod.mk.inj (Out.ok.inj h)
            have hcases : e = .EINVAL ∨ e = .ENOMEM := by
              unfold expand at he
              dsimp only at he
              split at he
              · exact .inl (Out.err.inj he).symm
              · split at he
                · exact .inr (Out.err.inj he).symm
                · exfalso
                  rename_i block _
                  have h1 : ∀ n e, slice p.2.data 0 n ≠ .err e := by
                    intro n e; unfold slice; split <;> exact fun h => (by cases h)
                  have h2 : ∀ u e, DataBuf.copyTo block 0 u ≠ .err e := by
                    intro u e; unfold DataBuf.copyTo; split <;> exact fun h => (by cases h)
                  have h3 : ∀ u m n e, DataBuf.zero u m n ≠ .err e := by
                    intro u m n e; unfold DataBuf.zero; split <;> exact fun h => (by cases h)
                  cases hu : slice p.2.data 0 p.2.count with
                  | err e' => exact h1 _ _ hu
                  | ub => rw [hu] at he; cases he
                  | ok u =>
                    rw [hu, Out.bind_ok] at he
                    cases hv : DataBuf.copyTo block 0 u with
                    | err e' => exact h2 _ _ hv
                    | ub => rw [hv] at he; cases he
                    | ok v =>
                      rw [hv, Out.bind_ok] at he
                      cases hz : DataBuf.zero v p.2.count ((2 * p.2.size % W + W - p.2.count) % W) with
                      | err e' => exact h3 _ _ _ _ hz
                      | ub => rw [hz] at he; cases he
                      | ok z => rw [hz] at he; cases he
            rcases hcases with rfl | rfl
            · exact ⟨.tooLong, by rw [he], .inl rfl⟩
            · exact ⟨.noMemory, by rw [he], .inl rfl⟩
          · cases h
        · rename_i hs
          rw [if_neg hs]
          obtain ⟨l, hl, hn⟩ := C123_reason_partial W es _ _ _ _ h
          exact ⟨l, hl, hn.imp mono fun h => h⟩
      · rename_i e hne hm
        obtain ⟨rfl, -⟩ := Prod.mk.inj (Out.ok.inj h)
        refine ⟨.parse "(unknown)", ?_, .inr ⟨rfl, e, hne, rfl⟩⟩
        rw [hm]
        cases e <;> first | rfl | exact absurd rfl hne
      · cases h

/-- A buffer of a connection. -/
def exBuf : Buf := ⟨0, BUF, MAX, List.replicate (BUF + 1) 0⟩

/-- A connection for which TLS needs a new handshake that the client does not complete. -/
example : recv (2 ^ 64) exBuf [] [.readError] = .ok (.failed .EIO, exBuf, [], []) ∧
    line (2 ^ 64) exBuf [] [(.readError, .handshakeError)] = .ok (.read (some "unable to complete TLS handshake")) :=
  ⟨rfl, rfl⟩

/-- The lines of `G`, which is not a request. -/
def exText : Bytes := [71, 13, 10, 13, 10]

/-- The arrival of the text. -/
def exIn : In := .data 100 (fun _ => true) (fun _ => none)

/-- The result of `recv` without the buffer. -/
def result (o : Out (Recv × Buf × Bytes × List In)) : Option Recv :=
  match o with
  | .ok r => some r.1
  | _ => none

/-- C123 is violated: the format error in the request of an HTTP client is logged as an unknown one. -/
theorem C123_violated : ¬ C123_statement := by
  intro h
  have hr : result (recv (2 ^ 64) exBuf exText [exIn]) = some (.failed .EBADMSG) := by decide +kernel
  have hl : line (2 ^ 64) exBuf exText [(exIn, .intr)] = .ok (.parse "(unknown)") := by decide +kernel
  cases hc : recv (2 ^ 64) exBuf exText [exIn] with
  | err e => rw [hc] at hr; cases hr
  | ub => rw [hc] at hr; cases hr
  | ok x =>
    rw [hc] at hr
    have hx : x.1 = .failed .EBADMSG := Option.some.inj hr
    obtain ⟨l, hl', hn⟩ := h (2 ^ 64) exBuf exText [(exIn, .intr)] x.1 x.2 hc
    rw [hl] at hl'
    have hl'' := Out.ok.inj hl'
    subst hl''
    rw [hx] at hn
    exact absurd (Option.some.inj hn) (by decide)

end FreeCoAP.Proxy.Reason
