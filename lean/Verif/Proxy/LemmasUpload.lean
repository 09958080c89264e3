import Verif.Proxy.SpecUpload
import Verif.Proxy.PropsBlocks

/-!
# Lemmas for a large body that is sent through the proxy
-/

namespace FreeCoAP.Proxy

open FreeCoAP.Http (HMsg)
open FreeCoAP.Msg (Msg Op)
open FreeCoAP.EndToEnd (ConfirmsLast)

/-- The exchanges of the proxy for a body that is sent in blocks. -/
theorem process_sends {w : World} {peer : Peer} {h : HMsg} {req : Msg} {host port b : Bytes} {out : Out (Nat × Msg × Bytes)} (g : Goes w h req (some b) host port)
    (hput : req.codeDetail = 2 ∨ req.codeDetail = 3) (hpos : 0 < b.length)
    (hk : w.blockwise req Msg.create 32 32 (bodyBuf (some b)).1 b.length false = out) :
    ∃ p, Is p host port ∧ process w peer h = ⟨some p, [(p, .blocks req 32 32 b false)], respond w (out >>= fun r => pure (r.2.1, r.2.2, r.1))⟩ := by
  obtain ⟨p, hp, ep⟩ := process_goes (peer := peer) g
  refine ⟨p, hp, ?_⟩
  have hsend : exchangeSend w req (bodyBuf (some b)).1 (bodyBuf (some b)).2 = ⟨[.blocks req 32 32 b false], out >>= fun r => pure (r.2.1, r.2.2, r.1)⟩ := by
    unfold exchangeSend
    rw [if_pos (show (bodyBuf (some b)).2 > 0 from hpos)]
    unfold inBlocks
    rw [show (bodyBuf (some b)).2 = b.length from rfl, hk, show (bodyBuf (some b)).1.take b.length = b from List.take_left ..]
    rfl
  have key : exchange w req (bodyBuf (some b)).1 (bodyBuf (some b)).2 = ⟨[.blocks req 32 32 b false], out >>= fun r => pure (r.2.1, r.2.2, r.1)⟩ := by
    unfold exchange
    rw [if_neg (by omega)]
    split
    · exact hsend
    · rw [if_pos (by omega)]
      exact hsend
  rw [ep, key]
  rfl

/-- The HTTP response for the response to the last block. -/
theorem confirm_relayed {env : Cross.Env} (he : env.Ample) {d : Nat} {rp : Msg} (hd : d = 1 ∨ d = 4) (hc : ConfirmsLast d rp) (body : Bytes) :
    ∃ h', Cross.respToHttp env rp body 0 = .ok h' ∧ Relayed (taken d) h' ∧ (Http.text h').length < 4096 ∧ Http.parse env.http (Http.text h') = .ok (h', (Http.text h').length) := by
  obtain ⟨c1, c2, c3, val, c4, c5⟩ := hc
  have hconv : Convertible rp := by
    refine ⟨?_, ⟨by omega, ?_⟩, ?_, by rw [c4]; exact (by decide : 1 ≤ 64)⟩
    · rw [c1, c2]
      rcases hd with rfl | rfl <;> decide
    · rw [c4]
      intro o ho
      rw [List.mem_singleton.1 ho]
      exact (by decide : Msg.BLOCK1 ≠ 23)
    · rw [c4]
      intro o ho
      rw [List.mem_singleton.1 ho]
      show val.length < 256
      omega
  obtain ⟨h', e1, e2, e3⟩ := respToHttp_goes he hconv body
  have hcon : Cross.contentOf (body.take 0) rp = [] := by
    rw [List.take_zero]
    exact c3
  have hv : Cross.values 4 rp = [] := by
    unfold Cross.values
    rw [c4]
    rfl
  have hlen : (Http.text h').length < 4096 := by
    have ht : total rp.ops = 3 := by rw [c4]; show val.length + 0 = 3; omega
    rw [ht, c3] at e2
    simp only [List.length_nil] at e2
    omega
  refine ⟨h', e1, ⟨?_, ?_⟩, hlen, ?_⟩
  · obtain ⟨r1, r2, r3, r4, r5⟩ := Cross.C59_response e1
    rw [hcon] at r3 r4
    rw [c1, c2] at r2
    rw [hv] at r5
    exact ⟨r1, r2, r3, fun hn => absurd rfl hn, r5⟩
  · intro code ht
    exact e3 code (by rw [c1, c2]; exact ht)
  · obtain ⟨b, -, g2, g3⟩ := Cross.C59_text_partial (out := List.replicate 4096 0) (n := (List.replicate 4096 (0 : Byte)).length) he
      (by rw [hcon]; decide) e1 (by rw [hv]; exact fun v hv => (by cases hv)) (by rw [hcon]; exact fun hn => (by cases hn)) (Nat.le_refl _)
      (by rw [List.length_replicate]; exact hlen) []
    rw [List.append_nil, g2] at g3
    exact g3

/-- Whatever server the proxy is connected to, the request is answered with something the HTTP client can read, and that is the answer of the application. -/
def Round.Answered (x : Round) : Prop :=
  ∀ p, ∃ q calls h', process x.turn.w p x.req.msg = ⟨q, calls, .ok h'⟩ ∧ (Http.text h').length ≤ 32768 ∧ ¬ IsSize (Http.text h').length ∧
    Understood x.turn.w.env'.http x.resp (Http.text h')

theorem answered_all : ∀ (l : List Round) (p : Peer), (∀ x ∈ l, x.Answered) →
    ∃ log, AllAnswered p (l.map (·.req)) (l.map (·.turn)) log ∧ log.length = l.length ∧
      ∀ (i : Nat) (x : Round) (e : Entry), l[i]? = some x → log[i]? = some e →
        (e.out.length ≤ 32768 ∧ ¬ IsSize e.out.length) ∧ Understood x.turn.w.env'.http x.resp e.out
  | [], p, _ => ⟨[], .nil, rfl, fun i x e h => by cases h⟩
  | x :: l, p, h => by
    obtain ⟨q, calls, h', h1, h2, h3, h4⟩ := h x (List.mem_cons_self ..) p
    obtain ⟨log, g1, g2, g3⟩ := answered_all l q (fun x hx => h x (List.mem_cons_of_mem _ hx))
    refine ⟨_ :: log, .cons h1 g1, by rw [List.length_cons, List.length_cons, g2], ?_⟩
    intro i y e' hy he
    cases i with
    | succ i => exact g3 i y e' hy he
    | zero =>
      rw [List.getElem?_cons_zero] at hy he
      cases hy
      cases he
      exact ⟨⟨h2, h3⟩, h4⟩

/-- The rounds of C115 and C116 are answered. -/
theorem mixed_answered {sx px : Bool} {x : Round} (hx : x.OK sx px ∨ ∃ src, x.InBlocks sx px src) : x.Answered := by
  intro p
  obtain ⟨log1, k1, k2, k3⟩ := mixed_core (sx := sx) (px := px) [x] p (fun y hy => by rw [List.mem_singleton.1 hy]; exact hx)
  cases k1 with
  | cons hp hn =>
    cases hn
    obtain ⟨⟨j1, j2⟩, j3, -⟩ := k3 0 x _ rfl rfl
    exact ⟨_, _, _, hp, j1, j2, j3⟩

/-- A connection whose requests are all answered. -/
theorem connection_answered {W : Nat} {c : Conn} {l : List Round} (hW : 2 * MAX + 1 < W) (hc : connNew W true true true = .ok c)
    (hl : ∀ x ∈ l, Fair x.req x.arrives x.turn ∧ x.Answered) :
    ∃ log, conversation W c (l.map (fun x => (x.req.text, x.arrives, x.turn))) = .ok (log, .done) ∧ log.length = l.length ∧
      ∀ (i : Nat) (x : Round) (e : Entry), l[i]? = some x → log[i]? = some e → Understood x.turn.w.env'.http x.resp e.out := by
  obtain ⟨log, h1, h2, h3⟩ := answered_all l none (fun x hx => (hl x hx).2)
  refine ⟨log, ?_, h2, fun i x e hx he => (h3 i x e hx he).2⟩
  have key := C77_answered_partial (l := l.map (fun x => (x.req, x.arrives, x.turn))) (log := log) hW hc
    (fun y hy => by
      obtain ⟨x, hx, rfl⟩ := List.mem_map.1 hy
      exact (hl x hx).1)
    (by rw [List.map_map, List.map_map]; exact h1)
    (fun e he => by
      obtain ⟨i, hi, rfl⟩ := List.getElem_of_mem he
      exact (h3 i (l[i]'(h2 ▸ hi)) log[i] (List.getElem?_eq_getElem _) (List.getElem?_eq_getElem hi)).1)
  rw [List.map_map] at key
  exact key

end FreeCoAP.Proxy
