import Verif.Tls.Model

/-!
# Specification of the caches of TLS sessions
-/

namespace FreeCoAP.Tls

/-! ## The server -/

/-- A call that stores `d` under `k`: the lock could be got, and they are not too long. -/
def Op.Stores (o : Op) (k d : Bytes) : Prop := (∃ lp, o = .set k d true lp) ∧ k.length ≤ 32 ∧ d.length ≤ 2048

/-- A call that deletes `k`. -/
def Op.Deletes (o : Op) (k : Bytes) : Prop := ∃ lp, o = .delete k true lp

/-- After the history `h`, `d` is what was stored last under `k`, and it was not deleted since. -/
def Latest (h : List Op) (k d : Bytes) : Prop :=
  ∃ a o b, h = a ++ o :: b ∧ o.Stores k d ∧ ∀ x ∈ b, (∀ d', ¬ x.Stores k d') ∧ ¬ x.Deletes k

/-- The number of calls that store something. -/
def stores : List Op → Nat
  | [] => 0
  | .set k d lg _ :: h => (if lg ∧ k.length ≤ 32 ∧ d.length ≤ 2048 then 1 else 0) + stores h
  | .delete _ _ _ :: h => stores h

/-- `d` was stored under `k` and after it less than `n` other things. -/
def StoredIn (n : Nat) (h : List Op) (k d : Bytes) : Prop :=
  ∃ a o b, h = a ++ o :: b ∧ o.Stores k d ∧ stores b < n

/-- `d` is what was stored last under `k`, it was not deleted since, and less than `n` other things were stored since. -/
def LatestIn (n : Nat) (h : List Op) (k d : Bytes) : Prop :=
  ∃ a o b, h = a ++ o :: b ∧ o.Stores k d ∧ (∀ x ∈ b, (∀ d', ¬ x.Stores k d') ∧ ¬ x.Deletes k) ∧ stores b < n

/-- Nothing is stored under a key under which there is something already. -/
def Fresh (h : List Op) : Prop :=
  ∀ a o b k d, h = a ++ o :: b → o.Stores k d → ∀ d', ¬ Latest a k d'

/-! ## The client -/

/-- A call that stores `d` for `addr`. -/
def CSet.Stores (o : CSet) (addr d : Bytes) : Prop := o.addr = addr ∧ o.data = d ∧ o.lg = true ∧ d.length ≤ 2048

/-- `d` is what was stored last for `addr`. -/
def CLatest (h : List CSet) (addr d : Bytes) : Prop :=
  ∃ a o b, h = a ++ o :: b ∧ o.Stores addr d ∧ ∀ x ∈ b, ∀ d', ¬ x.Stores addr d'

/-- The text of an address: a C string that fits, and not an empty one. -/
def IsAddr (A : Nat) (addr : Bytes) : Prop := addr ≠ [] ∧ addr.length < A ∧ 0 ∉ addr

/-- A queue of `n` places: what is stored for an address replaces what was stored for it before, or is put at the end, and then the first one falls
out if there is no room. -/
def queueSet (n : Nat) (q : List (Bytes × Bytes)) (addr d : Bytes) : List (Bytes × Bytes) :=
  if addr ∈ q.map Prod.fst then q.map (fun v => if v.1 = addr then (addr, d) else v)
  else (q ++ [(addr, d)]).drop (q.length + 1 - n)

/-- The queue after a call. -/
def queueStep (n : Nat) (q : List (Bytes × Bytes)) (o : CSet) : List (Bytes × Bytes) :=
  if o.lg = true ∧ o.data.length ≤ 2048 then queueSet n q o.addr o.data else q

/-- The queue after a history. -/
def queue (n : Nat) (h : List CSet) : List (Bytes × Bytes) := h.foldl (queueStep n) []

/-- The addresses in `h` are among `n`. -/
def AtMost (n : Nat) (h : List CSet) : Prop := ∃ l : List Bytes, l.length ≤ n ∧ ∀ o ∈ h, o.addr ∈ l

end FreeCoAP.Tls
