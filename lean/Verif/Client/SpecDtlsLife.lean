import Verif.Client.ModelDtlsLife

/-! # Specification: what becomes of the datagrams that arrive at a client over DTLS -/

namespace FreeCoAP.Client.Dtls

/-- The third list has the elements of the first two, each of them in its order. -/
inductive Merge : List α → List α → List α → Prop where
  | nil : Merge [] [] []
  | left {a : α} {xs ys zs} (h : Merge xs ys zs) : Merge (a :: xs) ys (a :: zs)
  | right {a : α} {xs ys zs} (h : Merge xs ys zs) : Merge xs (a :: ys) (a :: zs)

/-- The datagrams given to the TLS library. -/
def pulls (tr : List Io) : List Bytes := tr.filterMap (fun | .pulled b => some b | .pushed _ => none)

/-- Each datagram was given to the library, whole or cut, in this order. -/
inductive Handed : List Bytes → List Bytes → Prop where
  | nil : Handed [] []
  | cons {d b : Bytes} {q l} (h : b <+: d) (hs : Handed q l) : Handed (d :: q) (b :: l)

/-- From `w` to `w'` the datagrams `came` have arrived: those that arrive before the system calls that the library makes, and those of `inp`, which arrive
before calls of `select`. Of the datagrams that were in the socket and those that have arrived the first ones have been given to the library, each once and in order, and all others are still in the socket. -/
def Orderly (inp : List (List Bytes)) (w w' : World) : Prop :=
  ∃ (used : List Moment) (came : List (List Bytes)) (gone : List Bytes) (tr : List Io),
    w.future = used ++ w'.future ∧ Merge (used.map Moment.arrive) inp came ∧ w.queue ++ came.flatten = gone ++ w'.queue ∧
    w'.trace = w.trace ++ tr ∧ Handed gone (pulls tr)

/-- The datagrams of the first inputs, up to the one with which an exchange ends. -/
def Taken (is : List Input) (inp : List (List Bytes)) : Prop := ∃ n, inp = (is.take n).map Input.arrive

/-- The same for the rounds of a transfer. -/
inductive TakenRounds : List Round → List (List Bytes) → Prop where
  | none (rs : List Round) : TakenRounds rs []
  | cons {r : Round} {rs inp inps} (h : Taken r.is inp) (hs : TakenRounds rs inps) : TakenRounds (r :: rs) (inp ++ inps)

/-- For a call. -/
def Call.Taken (c : Call) (inp : List (List Bytes)) : Prop :=
  match c with
  | .exchange _ _ is => Dtls.Taken is inp
  | .blockwise _ _ _ _ _ _ _ rs1 rs2 => ∃ inp1 inp2, TakenRounds rs1 inp1 ∧ TakenRounds rs2 inp2 ∧ inp = inp1 ++ inp2

/-- For the calls of a program. -/
inductive TakenCalls : List Call → List (List Bytes) → Prop where
  | nil : TakenCalls [] []
  | cons {c : Call} {cs inp inps} (h : c.Taken inp) (hs : TakenCalls cs inps) : TakenCalls (c :: cs) (inp ++ inps)

end FreeCoAP.Client.Dtls
