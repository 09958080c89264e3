import Verif.Proxy.Spec
import Verif.DataBuf.Lemmas
import Verif.Http.Props

/-!
# Lemmas about receiving
-/

namespace FreeCoAP.Proxy

open FreeCoAP.DataBuf (Buf space put consume expand slice content Inv)
open FreeCoAP.Http (HMsg RawMsg)

/-- The state of the buffer for requests between reads. -/
structure Room (b : Buf) : Prop where
  inv : Inv MAX b
  size : IsSize b.size
  room : b.count < b.size

/-- The longest request that never fails for want of space. -/
def LIMIT : Nat := 32641

/-- What a call of `recv` can come to if the text of `r` is the next in the stream. -/
inductive Came (r : RawMsg) (rest u : Bytes) (b : Buf) (s : Bytes) (es : List In) : Recv → Buf → Bytes → List In → Prop where
  | msg {b' s' es'} : Room b' → content b' ++ s' ++ u = rest → es'.length < es.length → (∃ c, es = c ++ es') →
      s'.length ≤ s.length → Came r rest u b s es (.msg r.msg) b' s' es'
  | waiting {b' s'} : content b' ++ s' ++ u = r.text ++ rest → s'.length ≤ s.length → s'.length + es.length ≤ s.length ∨ ¬ (∀ e ∈ es, e.Some) →
      (es = [] ∨ (content b').length < r.text.length) → Came r rest u b s es .waiting b' s' []
  | timedOut {b' s' es'} : .timeout ∈ es → Came r rest u b s es .timedOut b' s' es'
  | closed {b' s' es'} : content b' ++ s' ++ u = r.text ++ rest → (s' = [] ∧ (b' = b ∧ s' = s ∨ (content b').length < r.text.length) ∨
      ∃ e ∈ es, ¬ e.Some) → Came r rest u b s es .closed b' s' es'
  | failed {b' s' es' e} : (.selectError e ∈ es ∨ .readError ∈ es ∧ e = .EIO ∨ e = .EINVAL ∧ LIMIT < r.text.length) →
      Came r rest u b s es (.failed e) b' s' es'

theorem slice_content {b : Buf} (h : Inv MAX b) : slice b.data 0 b.count = .ok (content b) := by
  have h1 := h.data
  have h2 := h.count
  unfold slice content
  rw [if_pos (by omega), List.drop_zero]

/-- A prefix of two texts. -/
theorem prefix_split {a x t rest : Bytes} (h : a ++ x = t ++ rest) :
    (∃ more, a = t ++ more ∧ more ++ x = rest) ∨ (a.length < t.length ∧ a = t.take a.length) := by
  rcases Nat.lt_or_ge a.length t.length with hl | hl
  · right
    refine ⟨hl, ?_⟩
    have := congrArg (List.take a.length) h
    rw [List.take_left, List.take_append_of_le_length (by omega)] at this
    exact this
  · left
    have h1 := congrArg (List.take t.length) h
    have h2 := congrArg (List.drop t.length) h
    rw [List.take_append_of_le_length hl, List.take_left] at h1
    rw [List.drop_append_of_le_length hl, List.drop_left] at h2
    have h3 := List.take_append_drop t.length a
    rw [h1] at h3
    exact ⟨a.drop t.length, h3.symm, h2⟩

theorem recv_came {W : Nat} (hW : 2 * MAX + 1 < W) {r : RawMsg} (hr : r.WF) {rest u : Bytes} :
    ∀ (es : List In) (b : Buf) (s : Bytes), Room b → (∀ e ∈ es, e.Ample) → content b ++ s ++ u = r.text ++ rest →
      ∃ res b' s' es', recv W b s es = .ok (res, b', s', es') ∧ Came r rest u b s es res b' s' es'
  | [], b, s, hb, he, hs => ⟨_, _, _, _, rfl, .waiting hs (Nat.le_refl _) (.inl (by simp)) (.inl rfl)⟩
  | .timeout :: es, b, s, hb, he, hs => ⟨_, _, _, _, rfl, .timedOut (List.mem_cons_self ..)⟩
  | .selectError e :: es, b, s, hb, he, hs => ⟨_, _, _, _, rfl, .failed (.inl (List.mem_cons_self ..))⟩
  | .readError :: es, b, s, hb, he, hs => ⟨_, _, _, _, rfl, .failed (.inr (.inl ⟨List.mem_cons_self .., rfl⟩))⟩
  | .data k mem fresh :: es, b, s, hb, he, hs => by
    have hsp : space W b = b.size - b.count := DataBuf.space_eq hW hb.inv
    have hroom := hb.room
    have hbs := hb.size
    simp only [IsSize, List.mem_cons, List.not_mem_nil, or_false] at hbs
    obtain ⟨hmem, hfr⟩ : (∀ n, mem n = true) ∧ ∀ n, ∃ block, fresh n = some block ∧ block.length = n := he _ (List.mem_cons_self ..)
    have hes : ∀ e ∈ es, e.Ample := fun e h => he e (List.mem_cons_of_mem _ h)
    unfold recv
    rw [hsp]
    dsimp only
    by_cases hd : s.take (min k (b.size - b.count)) = []
    · rw [if_pos hd]
      refine ⟨_, _, _, _, rfl, .closed hs ?_⟩
      rw [List.take_eq_nil_iff] at hd
      rcases hd with hd | hd
      · exact .inr ⟨_, List.mem_cons_self .., fun (h : 0 < k) => by omega⟩
      · exact .inl ⟨hd, .inl ⟨rfl, rfl⟩⟩
    · rw [if_neg hd]
      have hlen : (s.take (min k (b.size - b.count))).length ≤ b.size - b.count := by rw [List.length_take]; omega
      have hpos : 0 < (s.take (min k (b.size - b.count))).length := List.length_pos_iff.2 hd
      have happ : s.take (min k (b.size - b.count)) ++ s.drop (s.take (min k (b.size - b.count))).length = s := by
        have hk : (s.take (min k (b.size - b.count))).length = min (min k (b.size - b.count)) s.length := List.length_take
        rw [hk]
        have e : s.take (min k (b.size - b.count)) = s.take (min (min k (b.size - b.count)) s.length) := by
          rw [List.take_eq_take_iff]
          omega
        rw [e, List.take_append_drop]
      generalize s.take (min k (b.size - b.count)) = d at *
      obtain ⟨b1, e1, i1, s1, c1⟩ := DataBuf.put_ok d hW hb.inv
      have hmin : min d.length (b.size - b.count) = d.length := by omega
      rw [hmin, List.take_length] at c1
      rw [hmin] at e1
      have hs1 : content b1 ++ (s.drop d.length ++ u) = r.text ++ rest := by
        rw [c1, ← hs]
        simp only [List.append_assoc]
        rw [← List.append_assoc d, happ]
      have hl1 := DataBuf.content_length i1
      have hc1 : b1.count = b.count + d.length := by
        rw [← hl1, c1, List.length_append, DataBuf.content_length hb.inv]
      have hsl : (s.drop d.length).length + 1 ≤ s.length := by
        have := congrArg List.length happ
        rw [List.length_append] at this
        omega
      rw [e1, Out.bind_ok]
      dsimp only
      rw [slice_content i1, Out.bind_ok]
      rcases prefix_split hs1 with ⟨more, hm, hx⟩ | ⟨hlt, hm⟩
      · rw [hm, Http.C43_wellformed_partial hmem hr more]
        dsimp only
        obtain ⟨b2, e2, i2, s2, c2, -⟩ := DataBuf.consume_ok r.text.length hW i1
        rw [e2, Out.bind_ok]
        have hc2 : content b2 = more := by rw [c2, hm, List.drop_left]
        have hl2 := DataBuf.content_length i2
        refine ⟨_, _, _, _, rfl, .msg ⟨i2, by rw [s2, s1]; exact hb.size, ?_⟩ ?_ (by simp) ⟨[_], rfl⟩ (by omega)⟩
        · have : 0 < r.text.length := by
            have := (Http.C43_inside (Http.C43_wellformed_partial hmem hr [])).1
            exact this
          have h3 := congrArg List.length hm
          rw [List.length_append] at h3
          rw [hc2] at hl2
          have h4 : b1.count = r.text.length + b2.count := by rw [← hl1, ← hl2]; exact h3
          have := i1.count
          change b2.count < b2.size
          omega
        · change content b2 ++ _ ++ _ = _
          rw [hc2, List.append_assoc]
          exact hx
      · have hpe := Http.C43_incomplete_partial hmem hr hlt
        rw [← hm] at hpe
        rw [hpe]
        dsimp only
        rw [DataBuf.space_eq hW i1]
        have hnew : ∀ (b2 : Buf), Room b2 → content b2 = content b1 →
            ∃ res b' s' es', recv W b2 (s.drop d.length) es = .ok (res, b', s', es') ∧ Came r rest u b s (.data k mem fresh :: es) res b' s' es' := by
          intro b2 hb2 hc2
          obtain ⟨res, b', s', es', e, hcame⟩ := recv_came hW hr es b2 (s.drop d.length) hb2 hes (by rw [hc2, List.append_assoc]; exact hs1)
          refine ⟨res, b', s', es', e, ?_⟩
          cases hcame with
          | msg h1 h2 h3 h4 h5 =>
            obtain ⟨c, rfl⟩ := h4
            exact .msg h1 h2 (by simp; omega) ⟨.data k mem fresh :: c, rfl⟩ (by omega)
          | waiting h1 h2 h3 h4 =>
            refine .waiting h1 (by omega) ?_ (.inr ?_)
            · rcases h3 with h3 | h3
              · left
                simp only [List.length_cons]
                omega
              · exact .inr (fun h => h3 (fun e he => h e (List.mem_cons_of_mem _ he)))
            · rcases h4 with rfl | h4
              · cases e
                rw [hc2]
                exact hlt
              · exact h4
          | timedOut h1 => exact .timedOut (List.mem_cons_of_mem _ h1)
          | closed h1 h2 =>
            refine .closed h1 ?_
            rcases h2 with ⟨h2, h3⟩ | ⟨e, he, h2⟩
            · refine .inl ⟨h2, .inr ?_⟩
              rcases h3 with ⟨rfl, -⟩ | h3
              · rw [hc2]; exact hlt
              · exact h3
            · exact .inr ⟨e, List.mem_cons_of_mem _ he, h2⟩
          | failed h1 =>
            refine .failed ?_
            rcases h1 with h1 | ⟨h1, h2⟩ | h1
            · exact .inl (List.mem_cons_of_mem _ h1)
            · exact .inr (.inl ⟨List.mem_cons_of_mem _ h1, h2⟩)
            · exact .inr (.inr h1)
        by_cases hsmall : b1.size - b1.count < MIN_SPACE
        · rw [if_pos hsmall]
          unfold MIN_SPACE at hsmall
          have hexp := DataBuf.expand_ok fresh (fun n block h => by
            obtain ⟨bl, e2, h2⟩ := hfr n
            rw [h] at e2
            injection e2 with e2
            rw [e2]; exact h2) hW i1
          by_cases hbig : 2 * b1.size > MAX
          · rw [if_pos hbig] at hexp
            rw [hexp]
            refine ⟨_, _, _, _, rfl, .failed (.inr (.inr ⟨rfl, ?_⟩))⟩
            unfold LIMIT
            unfold MAX at hbig
            have := i1.count
            omega
          · rw [if_neg hbig] at hexp
            obtain ⟨bl, e2, h2⟩ := hfr (2 * b1.size + 1)
            rw [if_neg (by rw [e2]; simp)] at hexp
            obtain ⟨b2, e3, i2, s2, c2⟩ := hexp
            rw [e3]
            have := i1.count
            have hl2 := DataBuf.content_length i2
            rw [c2] at hl2
            unfold MAX at hbig
            refine hnew b2 ⟨i2, ?_, ?_⟩ c2
            · simp only [IsSize, List.mem_cons, List.not_mem_nil, or_false]
              omega
            · omega
        · rw [if_neg hsmall]
          unfold MIN_SPACE at hsmall
          exact hnew b1 ⟨i1, by rw [s1]; exact hb.size, by omega⟩ rfl

end FreeCoAP.Proxy
