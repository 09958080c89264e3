import Verif.Res.LemmasSample

/-!
# The sample programs release what they take (C138)

The environment is arbitrary, as in property C82: every call may give every result that it can give, and at the beginning there may be any sound
collection `S` of other objects in the process.
-/

namespace FreeCoAP.Res

/-- **C138**: a client program of the samples makes no call with an object that does not exist and destroys none to which another refers, whatever
fails and wherever it is stopped; when it ends, it has released everything, once. -/
theorem C138_client (x : Bool) (S : St) (hS : S.Sound) (args ver dtls : Bool) (addrs : List Bool) (trust crl : Bool) (name : Option Nat) (file ok : Bool) :
    Keeps x S (clientMain args ver dtls addrs trust crl name file ok) (fun _ S' => S'.Same S) := by
  refine (Keeps.ofSafe hS (clientMain_safe hS)).mono ?_
  rintro _ S' ⟨o, h1, rfl⟩
  exact h1

/-- **C138**: the same for a server program, whatever transactions the library creates and destroys and however many clients register. -/
theorem C138_server (S : St) (hS : S.Sound) (args ver dtls auth : Bool) (addrs : List Bool) (trust crl : Bool) (n : Nat) (todo : List Task) (ok : Bool) :
    Keeps false S (serverMain args ver dtls auth addrs trust crl n todo ok) (fun _ S' => S'.Same S) := by
  refine (Keeps.ofSafe hS (serverMain_safe hS)).mono ?_
  rintro _ S' ⟨o, h1, rfl⟩
  exact h1

/-- The memory of the three pools. -/
def exPools : List (Int × Nat) := [(1, 101), (1, 102), (1, 103), (1, 104), (1, 105), (1, 106)]

/-- The file transfer client from its start to its end, without DTLS: pools, address, socket 3, timer 4, memory for the file. -/
example : endsWith true (clientMain true true false [true] false false none true true)
    (exPools ++ [(0, 1), (3, 0), (0, 0), (0, 0), (2, 0), (0, 0), (4, 0)] ++ [(1, 107), (0, 0)] ++ List.replicate 8 (0, 0)) 0 = true := by decide +kernel

/-- There is no memory for the last pool. -/
example : endsWith true (clientMain true true false [true] false false none true true)
    (exPools.take 5 ++ [(0, 0)] ++ List.replicate 5 (0, 0)) 0 = true := by decide +kernel

/-- The registration server without DTLS: two clients come and register. -/
example : endsWith false (serverMain true true false false [true] false false 1 [.lib (.enter 0), .entry, .lib (.enter 0), .entry] true)
    (exPools ++ [(0, 1), (3, 0), (0, 0), (0, 0), (0, 0), (2, 0), (0, 0)] ++ [(5, 0), (1, 0), (1, 108), (0, 0), (6, 0), (1, 0), (1, 109)] ++
      List.replicate 10 (0, 0)) 0 = true := by decide +kernel

end FreeCoAP.Res
