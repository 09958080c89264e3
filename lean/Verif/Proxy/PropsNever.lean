import Verif.Proxy.Props2
import Verif.Http.PropsNever

/-!
# Property theorems on the proxy: requests that are never complete
-/

namespace FreeCoAP.Proxy

open FreeCoAP.DataBuf (Buf space put consume expand slice content Inv)
open FreeCoAP.Http (HMsg RawMsg RawHeader SaysChunked Announces parse always)

theorem recv_never {W : Nat} (hW : 2 * MAX + 1 < W) {t : Bytes} (ht : ∀ k m n, parse always (t.take k) ≠ .ok (m, n)) :
    ∀ (es : List In) (b : Buf) (s : Bytes), Inv MAX b → (∀ e ∈ es, e.Ample) → content b ++ s = t →
      ∀ m b' s' es', recv W b s es ≠ .ok (.msg m, b', s', es')
  | [], b, s, hb, he, hs => fun m b' s' es' h => by cases h
  | .timeout :: es, b, s, hb, he, hs => fun m b' s' es' h => by cases h
  | .selectError e :: es, b, s, hb, he, hs => fun m b' s' es' h => by cases h
  | .readError :: es, b, s, hb, he, hs => fun m b' s' es' h => by cases h
  | .data k mem fresh :: es, b, s, hb, he, hs => by
    intro m b' s' es' h
    have hsp : space W b = b.size - b.count := DataBuf.space_eq hW hb
    obtain ⟨hmem, hfr⟩ : (∀ n, mem n = true) ∧ ∀ n, ∃ block, fresh n = some block ∧ block.length = n := he _ (List.mem_cons_self ..)
    have hes : ∀ e ∈ es, e.Ample := fun e h => he e (List.mem_cons_of_mem _ h)
    obtain rfl : mem = always := funext hmem
    unfold recv at h
    rw [hsp] at h
    dsimp only at h
    by_cases hd : s.take (min k (b.size - b.count)) = []
    · rw [if_pos hd] at h
      cases h
    · rw [if_neg hd] at h
      have hlen : (s.take (min k (b.size - b.count))).length ≤ b.size - b.count := by rw [List.length_take]; omega
      have happ : s.take (min k (b.size - b.count)) ++ s.drop (s.take (min k (b.size - b.count))).length = s := by
        have hk : (s.take (min k (b.size - b.count))).length = min (min k (b.size - b.count)) s.length := List.length_take
        rw [hk]
        have e : s.take (min k (b.size - b.count)) = s.take (min (min k (b.size - b.count)) s.length) := by
          rw [List.take_eq_take_iff]
          omega
        rw [e, List.take_append_drop]
      generalize s.take (min k (b.size - b.count)) = d at *
      obtain ⟨b1, e1, i1, s1, c1⟩ := DataBuf.put_ok d hW hb
      have hmin : min d.length (b.size - b.count) = d.length := by omega
      rw [hmin, List.take_length] at c1
      rw [hmin] at e1
      have hs1 : content b1 ++ s.drop d.length = t := by
        rw [c1, ← hs, List.append_assoc, happ]
      have hp : content b1 = t.take (content b1).length := by rw [← hs1, List.take_left]
      rw [e1, Out.bind_ok] at h
      dsimp only at h
      rw [slice_content i1, Out.bind_ok] at h
      split at h
      · rename_i m' n' hq
        rw [hp] at hq
        exact ht _ _ _ hq
      · split at h
        · split at h
          · rename_i b2 hx
            have hexp := DataBuf.expand_ok fresh (fun n block h => by
              obtain ⟨bl, e2, h2⟩ := hfr n
              rw [h] at e2
              injection e2 with e2
              rw [e2]; exact h2) hW i1
            rw [hx] at hexp
            split at hexp
            · cases hexp
            · split at hexp
              · cases hexp
              · obtain ⟨b3, e3, i3, -, c3⟩ := hexp
                cases e3
                exact recv_never hW ht es _ _ i3 hes (by rw [c3]; exact hs1) _ _ _ _ h
          · cases h
          · cases h
        · exact recv_never hW ht es _ _ i1 hes hs1 _ _ _ _ h
      · cases h
      · cases h

/-- A request with a length that is negative as an `int` is never received, in whatever segments it comes and whatever
follows: the connection waits, until the time is over or the buffer is full. -/
theorem C149_connection {W : Nat} {b : Buf} (hW : 2 * MAX + 1 < W) (hb : DataBuf.create W BUF MAX true = .ok b)
    {r : RawMsg} (h : r.Head) (hc : ¬ SaysChunked (r.headers.map RawHeader.header))
    (hn : ∀ n, ¬ Announces (r.headers.map RawHeader.header) n) {more : Bytes} (h0 : 0x00 ∉ more)
    (hl : more.length < 2 ^ 63) {es : List In} (he : ∀ e ∈ es, e.Ample) {m : HMsg} {b' : Buf} {s' : Bytes}
    {es' : List In} : recv W b (r.text ++ more) es ≠ .ok (.msg m, b', s', es') := by
  obtain ⟨hi, hs⟩ := create_room hW hb
  exact recv_never hW (Http.C149_parts h hc hn h0 hl) es b _ hi.inv he (by rw [hs]; rfl) _ _ _ _

/-- The buffer for requests can be created. -/
example : ∃ b, DataBuf.create (2 ^ 64) BUF MAX true = .ok b := ⟨_, rfl⟩

/-- A request of this kind, and an event that is allowed. -/
example : Http.minusOne.Head ∧ ¬ SaysChunked (Http.minusOne.headers.map RawHeader.header) ∧
    (∀ n, ¬ Announces (Http.minusOne.headers.map RawHeader.header) n) ∧ (In.data 100 always (fun n => some (List.replicate n 0))).Ample :=
  ⟨Http.minusOne_head, Http.minusOne_not_chunked, Http.minusOne_length, fun _ => rfl, fun n => ⟨_, rfl, List.length_replicate⟩⟩

end FreeCoAP.Proxy
