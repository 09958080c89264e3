import Verif.Sample.Model

/-! # Specification of the registrar: a map from ids to addresses -/

namespace FreeCoAP.Sample

/-- A map from ids to addresses, in the order in which the ids were added. -/
abbrev Map := List (Bytes × Bytes)

namespace Map

def get (m : Map) (id : Bytes) : Option (Bytes × Bytes) := m.find? (fun x => x.1 = id)

/-- The address of `id` becomes `addr`. -/
def set (m : Map) (id addr : Bytes) : Map := m.map (fun x => if x.1 = id then (x.1, addr) else x)

def remove (m : Map) (id : Bytes) : Map := m.filter (fun x => x.1 ≠ id)

end Map

/-- What a call should do. `ok` tells whether there is memory for a new entry. -/
def Map.step (m : Map) (ok : Bool) : Op → Res × Map
  | .add id addr _ =>
    match m.get id with
    | some _ => (.ret (.ok 1), m.set id addr)
    | none => if ok then (.ret (.ok 0), m ++ [(id, addr)]) else (.ret (.error .ENOMEM), m)
  | .find id => (.found (m.get id), m)
  | .del id =>
    match m.get id with
    | some _ => (.ret (.ok 0), m.remove id)
    | none => (.ret (.error .EINVAL), m)

/-- `malloc` does not fail. -/
def Op.Memory : Op → Prop
  | .add _ _ alloc => ∀ live, alloc live ≠ none
  | _ => True

/-- The calls `ops` behave as those of a map, with the results `rs`; at the end the map is `m'`. A call fails for lack of memory only if `malloc` may
fail. -/
inductive Behaves : Map → List Op → List Res → Map → Prop where
  | nil {m} : Behaves m [] [] m
  | cons {m op ops rs m'} (ok : Bool) : (op.Memory → ok = true) → Behaves (m.step ok op).2 ops rs m' → Behaves m (op :: ops) ((m.step ok op).1 :: rs) m'

/-- `malloc` does not return memory that is in use. -/
def Op.Fresh : Op → Prop
  | .add _ _ alloc => ∀ live p, alloc live = some p → p ∉ live
  | _ => True

/-- The strings fit into the buffers of an entry. -/
def Op.Fits (L : Nat) : Op → Prop
  | .add id addr _ => id.length < 32 ∧ addr.length < L
  | _ => True

/-- Entries are deleted only if it does no harm: the first one, as long as there are others, or the only one, if no entry was deleted since the registrar
was empty (`clean`). -/
def Deletes : Bool → Map → List Op → Prop
  | _, _, [] => True
  | clean, m, .del id :: ops =>
    match m with
    | [] => Deletes clean m ops
    | (i, a) :: rest =>
      if (Map.get ((i, a) :: rest) id).isNone then Deletes clean m ops
      else if i = id then (if rest = [] then clean = true ∧ Deletes true [] ops else Deletes false rest ops)
      else False
  | clean, m, op :: ops => Deletes clean (m.step true op).2 ops ∧ Deletes clean (m.step false op).2 ops

end FreeCoAP.Sample
