import Verif.Server.LemmasEcho
import Verif.Server.PropsForget
import Verif.Server.PropsDtls

/-!
# C147: what an address gets in return for what it sends
-/

namespace FreeCoAP.Server.Echo

open FreeCoAP.Msg

/-- C147: an address gets at most six datagrams, and at most 5764 bytes, for every datagram that came from it. -/
theorem C147_bounded (sx : Bool) (evs : List (Env × Event)) (s : Srv) (tr : List (List Obs)) (h : Reach sx evs s tr) (a : Addr) :
    (sentTo a tr).length ≤ 6 * cameFrom a evs ∧ size (sentTo a tr) ≤ 5764 * cameFrom a evs := by
  obtain ⟨id, sepList, pool, h⟩ := h
  obtain ⟨h1, h2⟩ := all_events a (init_tidy id sepList pool) h
  have h0 : left (ofAddr (init id sepList pool) a) = 0 := by rw [ofAddr_init]; rfl
  rw [h0] at h1 h2
  omega

/-- An address from which nothing came gets nothing. -/
theorem C147_silent (sx : Bool) (evs : List (Env × Event)) (s : Srv) (tr : List (List Obs)) (h : Reach sx evs s tr) (a : Addr)
    (ha : ∀ env b d, (env, Event.datagram b d) ∈ evs → b ≠ a) : sentTo a tr = [] := by
  have h0 : cameFrom a evs = 0 := by
    unfold cameFrom
    rw [List.countP_eq_zero]
    rintro ⟨env, ev⟩ hx hp
    cases ev with
    | datagram b d => exact ha env b d hx (of_decide_eq_true hp)
    | timer i => cases hp
    | appId => cases hp
  have := (C147_bounded sx evs s tr h a).1
  rw [h0] at this
  exact List.length_eq_zero_iff.1 (by omega)

/-- Over DTLS the same holds for the messages in records: the datagrams in `ys` are the
records that the TLS library delivers for the sessions, and the turns of the server in
which it delivers none (see C98). -/
theorem C147_dtls (sx auth : Bool) (id : Nat) (sepList : List Bytes) (pool : Mem.Pool) (w w' : Dtls.World) (xs : List Dtls.Input) (s : Srv)
    (tr : List (List Obs)) (h : Dtls.run sx auth xs (init id sepList pool) w = .ok (s, w', tr)) :
    ∃ ys, Dtls.Stand xs ys ∧ ∀ a, (sentTo a tr).length ≤ 6 * cameFrom a ys ∧ size (sentTo a tr) ≤ 5764 * cameFrom a ys := by
  obtain ⟨ys, h1, h2⟩ := Dtls.C98_same_server sx auth id sepList pool w w' xs s tr h
  exact ⟨ys, h1, C147_bounded sx ys s tr ⟨id, sepList, pool, h2⟩⟩

/-- A handshake and a request over DTLS. -/
example : test (Dtls.run false true [Dtls.exTurn, Dtls.exTurn] exInit Dtls.exWorld) (fun r => decide ((sentTo exA r.2.2).length = 1)) = true := by
  decide +kernel

/-- An application that fills the buffer with its response. -/
def exEnvFull : Env :=
  { exEnv with handle := fun _ _ => .reply { create with codeClass := 2, codeDetail := 5, payload := List.replicate 1146 0 } none }

/-- One datagram of seven bytes, after which nothing more comes. -/
def exEcho : List (Env × Event) :=
  [(exEnvFull, .datagram exA exGetB), (exEnv, .timer 0), (exEnv, .timer 0), (exEnv, .timer 0), (exEnv, .timer 0), (exEnv, .timer 0), (exEnv, .timer 0)]

/-- Both bounds are reached: a confirmable request for a resource with separate responses
that is never acknowledged. -/
theorem C147_reached (sx : Bool) : cameFrom exA exEcho = 1 ∧
    test (run sx exInit exEcho) (fun r => decide ((sentTo exA r.2).length = 6 ∧ size (sentTo exA r.2) = 5764)) = true :=
  ⟨by decide +kernel, by revert sx; decide +kernel⟩

/-- The hypotheses hold for that history, and in it the address 2 gets nothing. -/
example (sx : Bool) : (∃ s tr, Reach sx exEcho s tr ∧ sentTo [2] tr = []) := by
  have h : test (run sx exInit exEcho) (fun _ => true) = true := by revert sx; decide +kernel
  cases hr : run sx exInit exEcho with
  | ok r =>
    have hR : Reach sx exEcho r.1 r.2 := ⟨100, exSep, exPool, hr⟩
    exact ⟨r.1, r.2, hR, List.length_eq_zero_iff.1 (Nat.le_zero.1 (C147_bounded sx exEcho r.1 r.2 hR [2]).1)⟩
  | err e => rw [hr] at h; cases h
  | ub => rw [hr] at h; cases h

end FreeCoAP.Server.Echo
