import Verif.Server.LemmasRecords
import Verif.Server.PropsDtls

/-!
# C107 A message that has arrived at a server over DTLS is received
-/

namespace FreeCoAP.Server.Dtls

open FreeCoAP.Msg

/-- The full property: when no datagram waits in the socket, the server has been given every record that has arrived. -/
def C107_statement : Prop :=
  ∀ (opens : Addr → Bytes → List Bytes) (as : List (List Dgram)), UdpAll as → (sessions opens as).world.queue = [] →
    ∀ a, givenTo a (sessions opens as).given = recordsOf opens a as.flatten

/-- No record is lost, repeated, taken out of its turn or given for another sender. -/
theorem C107_order (opens : Addr → Bytes → List Bytes) (as : List (List Dgram)) (hu : UdpAll as) (a : Addr) :
    givenTo a (sessions opens as).given ++ (sessions opens as).kept a ++ recordsOf opens a (sessions opens as).world.queue =
      recordsOf opens a as.flatten :=
  (accounts opens as hu).all a

/-- It holds when each datagram carries at most one record. Missing from the full claim: see `C107_violated`. -/
theorem C107_given_partial (opens : Addr → Bytes → List Bytes) (as : List (List Dgram)) (hu : UdpAll as) (h1 : ∀ a d, (opens a d).length ≤ 1)
    (hq : (sessions opens as).world.queue = []) (a : Addr) : givenTo a (sessions opens as).given = recordsOf opens a as.flatten := by
  have hk : ∀ (as : List (List Dgram)) (s : Sessions) (all : List Dgram), UdpAll as → Accounts opens s all → (∀ a, s.kept a = []) →
      ∀ a, (as.foldl (Sessions.next opens) s).kept a = [] := by
    intro as
    induction as with
    | nil => intro s all _ _ h; exact h
    | cons l as ih =>
      intro s all hu h hk
      rw [List.foldl_cons]
      refine ih _ _ (fun x hx => hu x (by simp [hx])) (h.next l (hu l (by simp))) (kept_none h1 hk h.future l ?_)
      intro d hd
      rcases List.mem_append.1 hd with hd | hd
      · exact h.udp d hd
      · exact hu l (by simp) d hd
  have h := C107_order opens as hu a
  rw [hq, show (sessions opens as).kept a = [] from
    hk as ⟨[], fun _ => [], ⟨[], [], none, []⟩⟩ [] hu ⟨rfl, by simp, fun a => rfl⟩ (fun _ => rfl) a] at h
  simpa [recordsOf] using h

/-- What the server does with a record: the same as a server without DTLS with a datagram of that content. This is one event `Sessions.next` in every
state of the server in which the sender has a session. -/
theorem C107_turn (sx auth : Bool) (x : Input) (opens : Bytes → List Bytes) (s : Srv) (d : Dgram) (q : List Dgram) (e : Option Err) (tr : List Ev) (r : Bytes)
    (rest : List Bytes) (hs : ofAddr s d.src ≠ none) (hd : d.data.length ≤ 65535) (ho : opens d.data = r :: rest) (hr : r ≠ []) (hev : x.ev = .turn)
    (hrecv : x.calls.recv = (recordRecv opens []).fst) (hbye : x.calls.bye = .done () _root_.id) :
    step sx auth x s ⟨d :: q, [], e, tr⟩ =
      Server.step sx s { x.env with acceptErr := none, recvErr := none } (.datagram d.src r) >>=
        fun p => pure (p.1, ⟨q, [], none, tr ++ [.pulled d.src d.data]⟩, p.2) := by
  obtain ⟨i, hi⟩ : ∃ i, findTrans s.trans d.src = some i := by
    cases hf : findTrans s.trans d.src with
    | some i => exact ⟨i, rfl⟩
    | none =>
      refine absurd ?_ hs
      rw [ofAddr_look, look_none]
      intro i t hi ha hb
      unfold findTrans at hf
      rw [List.findIdx?_eq_none_iff] at hf
      have := hf t (List.mem_of_getElem? hi)
      simp [ha, hb] at this
  obtain ⟨t, ht, hact, haddr⟩ := findTrans_at hi
  have hrec : record d.src x.calls ⟨d :: q, [], e, tr⟩ = (.ok r, ⟨q, [], none, tr ++ [.pulled d.src d.data]⟩) := by
    unfold record
    rw [hrecv, call_fst, recv_first opens d.src d q none tr rfl hd, ho]
    dsimp only
    rw [if_neg hr]
  rw [plain_known rfl hi]
  unfold step
  rw [hev]
  show exchange sx auth x.env x.calls s ⟨d :: q, [], e, tr⟩ = _
  unfold exchange
  rw [show peek BUF_LEN ⟨d :: q, [], e, tr⟩ = (some (d.data.take BUF_LEN, d.src), ⟨d :: q, [], e, tr⟩) from rfl]
  dsimp only
  rw [hi]
  dsimp only
  unfold serve
  rw [ht]
  dsimp only
  rw [haddr, hrec]
  dsimp only
  cases exchangeAt sx { x.env with acceptErr := none, recvErr := none } s i r with
  | ub => rfl
  | err e => rfl
  | ok p =>
    obtain ⟨s1, o, e1⟩ := p
    show Out.ok (s1, ended i d.src x.calls s1 _, o, e1) = .ok _
    unfold ended bye
    rw [hbye]
    cases s1.trans[i]? with
    | none => rfl
    | some t =>
      dsimp only
      cases t.active <;> rfl

/-! ## Examples and the violation -/

/-- One record in each datagram but `[4]`, which has two. -/
def exOpens (_ : Addr) (d : Bytes) : List Bytes := if d = [4] then [exGet, exGetB] else [d]

/-- The hypotheses of the theorems hold. -/
example : UdpAll [[⟨exA, [1]⟩, ⟨exB, [2]⟩], [⟨exA, [4]⟩], [], []] ∧ (∀ a d, ((fun (_ : Addr) d => [d]) a d : List Bytes).length ≤ 1) ∧
    (sessions (fun _ d => [d]) [[⟨exA, [1]⟩, ⟨exB, [2]⟩], [⟨exA, [4]⟩], [], []]).world.queue = [] ∧
    (sessions (fun _ d => [d]) [[⟨exA, [1]⟩, ⟨exB, [2]⟩], [⟨exA, [4]⟩], [], []]).given = [(exA, [1]), (exB, [2]), (exA, [4])] := by
  refine ⟨?_, by simp, by decide +kernel, by decide +kernel⟩
  unfold UdpAll
  decide +kernel

/-- Two records in one datagram: the second one stays with GnuTLS, where `select` does not see it. -/
theorem C107_violated : ¬ C107_statement := by
  intro h
  have := h exOpens [[⟨exA, [4]⟩]] (by unfold UdpAll; decide +kernel) (by decide +kernel) exA
  exact absurd this (by decide +kernel)

/-- A turn of the server with the records that the session of the client has kept. -/
def exKeeps (kept : List Bytes) : Input := { exTurn with calls := { exCalls with recv := (recordRecv (exOpens exA) kept).fst } }

/-- In the server: a handshake, then a datagram with two requests. The first is answered. Then the socket is empty and the server waits. The second request,
which GnuTLS has kept, is answered when the client sends something else, here the first request again, to which the server comes after that. -/
theorem C107_unanswered :
    test (run false true [exTurn, exKeeps []] exInit ⟨[⟨exA, [1]⟩, ⟨exA, [3]⟩, ⟨exA, [4]⟩], [], none, []⟩)
      (fun r => r.2.2.map sends == [[], [(exA, [0x61, 0x45, 0, 5, 0xAA, 0xFF, 104, 105])]] && r.2.1.queue.isEmpty &&
        test (run false true [exKeeps [exGetB]] r.1 { r.2.1 with queue := [⟨exA, exGet⟩] })
          (fun r => r.2.2.map (fun o => (sends o).isEmpty) == [false] && r.2.1.queue == [⟨exA, exGet⟩])) = true := by
  decide +kernel

end FreeCoAP.Server.Dtls
