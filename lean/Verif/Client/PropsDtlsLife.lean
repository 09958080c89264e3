import Verif.Client.LemmasDtlsLife
import Verif.Client.PropsDtls

/-! # C136: the datagrams of a client over DTLS -/

namespace FreeCoAP.Client.Dtls

open FreeCoAP.Msg

/-- Whatever the TLS library does, whatever fails and whatever the program calls: from the creation of the client to its destruction the datagrams that arrive
are given to the library once and in the order of their arrival. What an exchange has not read stays in the socket for the next one. -/
theorem C136_datagrams (sx px setup verified : Bool) (hs : Nat → Lib Shake) (cs : List Call) (u : World) :
    ∃ inp, (if (create setup hs verified u).1 = none then TakenCalls cs inp else inp = []) ∧ Orderly inp u (life sx px setup hs verified cs u) := by
  have h := create_orderly setup hs verified u
  unfold life
  generalize create setup hs verified u = x at h
  obtain ⟨e, u1⟩ := x
  cases e with
  | some e => exact ⟨[], by rw [if_neg (fun h => by cases h)], h⟩
  | none =>
    obtain ⟨inp, h1, h2⟩ := calls_orderly sx px cs u1
    exact ⟨inp, by rw [if_pos rfl]; exact h1, h.trans h2⟩

/-- The library has then been given the first datagrams of those that have arrived, and when the socket is empty, all of them. -/
theorem C136_all (sx px setup verified : Bool) (hs : Nat → Lib Shake) (cs : List Call) (u : World) (hq : u.queue = []) (ht : u.trace = [])
    (he : (life sx px setup hs verified cs u).queue = []) :
    ∃ inp came, (if (create setup hs verified u).1 = none then TakenCalls cs inp else inp = []) ∧ (∃ used, used <+: u.future ∧ Merge (used.map Moment.arrive) inp came) ∧
      Handed came.flatten (pulls (life sx px setup hs verified cs u).trace) := by
  obtain ⟨inp, h0, used, came, gone, tr, h1, h2, h3, h4, h5⟩ := C136_datagrams sx px setup verified hs cs u
  rw [hq, he, List.nil_append, List.append_nil] at h3
  rw [ht, List.nil_append] at h4
  rw [h4]
  exact ⟨inp, came, h0, ⟨used, ⟨_, h1.symm⟩, h2⟩, by rw [h3]; exact h5⟩

/-- A handshake with a datagram, an exchange that ends with the acknowledgement and the response while a third datagram has arrived, and an exchange that
reads it. -/
def exLife : World :=
  life false false true exShake true
    [.exchange (exEnv []) exGet [⟨.readable, [[1], [2], [9]], .pull 1152 (fun | some [1] => .done (.data exAck) _root_.id | _ => .done .again _root_.id), none, none, true⟩,
      ⟨.readable, [], .pull 1152 (fun | some [2] => .done (.data exSep) _root_.id | _ => .done .again _root_.id), none, none, true⟩],
     .exchange (exEnv []) exGet [⟨.readable, [], .pull 1152 (fun _ => .done .again _root_.id), none, none, true⟩]]
    ⟨[], [⟨[[7]], none⟩], none, []⟩

example : pulls exLife.trace = [[7], [1], [2], [9]] ∧ exLife.queue = [] := by constructor <;> decide +kernel

end FreeCoAP.Client.Dtls
