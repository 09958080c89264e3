import Verif.Proxy.ModelFds

/-!
# Specification of the descriptors of the proxy

What the process looks like when the proxy has started, and what it means that only so many clients are connected.
-/

namespace FreeCoAP.Proxy.Fds

/-- The proxy has started in a process with the limit `lim`: it listens, no client is connected, and the open descriptors are the lowest ones
(nothing has been closed yet). -/
structure Started (lim : Nat) (s : State) : Prop where
  none : s.conns = []
  lowest : ∀ fd, fd ∈ s.used ↔ fd < s.used.length
  distinct : s.used.Nodup
  limit : s.used.length ≤ lim

/-- At any time of the history at most `clients` connections and `others` other descriptors are open. -/
def AtMost (lim : Nat) (s : State) (evs : List Event) (clients others : Nat) : Prop :=
  ∀ n t, run lim s (evs.take n) = .ok t → t.conns.length ≤ clients ∧ t.others.length ≤ others

/-- The history is handled correctly: no step puts a descriptor into a set that has no place for it, and at the end no two sockets or timers have
the same descriptor. -/
def Handled (lim : Nat) (s : State) (evs : List Event) : Prop :=
  ∃ t, run lim s evs = .ok t ∧ t.used.Nodup

end FreeCoAP.Proxy.Fds
