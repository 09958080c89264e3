import Verif.Server.ModelBuf
import Verif.Msg.HeapSpec

/-! # Specification of the buffers that the messages of the server use -/

namespace FreeCoAP.Server.Buf

open FreeCoAP.Msg.Heap
open FreeCoAP.Mem (Pool Call held)

/-- The buffers that the recorded requests and responses point to. -/
def State.small (s : State) : List Nat := s.slots.flatMap (fun x => x.req.ownSmall ++ x.resp.ownSmall)
def State.medium (s : State) : List Nat := s.slots.flatMap (fun x => x.req.ownMedium ++ x.resp.ownMedium)

/-- The buffers in use are those of the recorded messages of the server and those that the application uses (`os` and `om`), and nothing was
given back twice. -/
structure Exact (s : State) (os om : List Nat) : Prop where
  small : (held [] s.heap.smallLog).Perm (s.small ++ os)
  medium : (held [] s.heap.mediumLog).Perm (s.medium ++ om)
  cleanSmall : Clean [] s.heap.smallLog
  cleanMedium : Clean [] s.heap.mediumLog

end FreeCoAP.Server.Buf
