import Verif.Server.ModelFds

/-!
# Specification of the descriptors of the CoAP library

What the process looks like before it uses the library, and how many servers, clients and other descriptors it has.
-/

namespace FreeCoAP.Server.Fds

/-- The process has no servers and clients yet; its descriptors have different uses, are different, are below the limit, and are below 1024. -/
structure Begins (lim : Nat) (s : State) : Prop where
  mine : ∀ x ∈ s, ∃ k, x.1 = .other k
  uses : (s.map Prod.fst).Nodup
  distinct : (used s).Nodup
  limit : ∀ fd ∈ used s, fd < lim
  low : ∀ fd ∈ used s, fd < 1024

/-- At any time of the history there are at most `servers` servers, `clients` clients and `others` other descriptors. The timers of the servers and
of the clients are not counted. -/
def AtMost (lim : Nat) (s : State) (evs : List Event) (servers clients others : Nat) : Prop :=
  ∀ n t, run lim s (evs.take n) = .ok t → ∃ ks cs os : List Nat, ks.length ≤ servers ∧ cs.length ≤ clients ∧ os.length ≤ others ∧
    (∀ k, .server k ∈ t.map Prod.fst → k ∈ ks) ∧ (∀ k, .client k ∈ t.map Prod.fst → k ∈ cs) ∧ (∀ k, .other k ∈ t.map Prod.fst → k ∈ os)

/-- The history is handled correctly: no step puts a descriptor into a set that has no place for it, and at the end no two sockets, timers or
files have the same descriptor. -/
def Handled (lim : Nat) (s : State) (evs : List Event) : Prop :=
  ∃ t, run lim s evs = .ok t ∧ (used t).Nodup

end FreeCoAP.Server.Fds
