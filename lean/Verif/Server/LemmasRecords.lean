import Verif.Server.SpecRecords
import Verif.Server.LemmasDtls

/-!
# Lemmas about the records that the sessions of a server keep
-/

namespace FreeCoAP.Server.Dtls

theorem recordsOf_cons {opens : Addr → Bytes → List Bytes} {a : Addr} {d : Dgram} {l : List Dgram} :
    recordsOf opens a (d :: l) = (if d.src = a then opens a d.data else []) ++ recordsOf opens a l := rfl

theorem recordsOf_append {opens : Addr → Bytes → List Bytes} {a : Addr} {l l' : List Dgram} :
    recordsOf opens a (l ++ l') = recordsOf opens a l ++ recordsOf opens a l' := by simp [recordsOf]

theorem givenTo_append {a : Addr} {l l' : List (Addr × Bytes)} : givenTo a (l ++ l') = givenTo a l ++ givenTo a l' := by simp [givenTo]

theorem pull_first (a : Addr) (d : Dgram) (q : List Dgram) (e : Option Err) (tr : List Ev) (ha : d.src = a) (hd : d.data.length ≤ 65535) :
    pull a 65535 ⟨d :: q, [], e, tr⟩ = (some d.data, ⟨q, [], e, tr ++ [.pulled a d.data]⟩) := by
  have ht : d.data.take 65535 = d.data := List.take_of_length_le hd
  unfold pull peek World.next
  dsimp only
  rw [if_neg (by simp [ha])]
  unfold take World.next
  dsimp only
  rw [ht, List.take_of_length_le (Nat.le_refl _)]

theorem recv_first (opens : Bytes → List Bytes) (a : Addr) (d : Dgram) (q : List Dgram) (e : Option Err) (tr : List Ev) (ha : d.src = a)
    (hd : d.data.length ≤ 65535) : (recordRecv opens []).call a ⟨d :: q, [], e, tr⟩ =
      ((match opens d.data with | [] => (.again, []) | r :: rest => (.data r, rest)), ⟨q, [], e, tr ++ [.pulled a d.data]⟩) := by
  unfold recordRecv Lib.call
  rw [pull_first a d q e tr ha hd]
  dsimp only
  cases opens d.data <;> rfl

/-- What has arrived, for each sender: given to the server, kept by the session, in the socket. -/
structure Accounts (opens : Addr → Bytes → List Bytes) (s : Sessions) (all : List Dgram) : Prop where
  future : s.world.future = []
  udp : ∀ d ∈ s.world.queue, d.data.length ≤ 65535
  all : ∀ a, givenTo a s.given ++ s.kept a ++ recordsOf opens a s.world.queue = recordsOf opens a all

theorem Accounts.next {opens : Addr → Bytes → List Bytes} {s : Sessions} {all : List Dgram} (h : Accounts opens s all) (l : List Dgram)
    (hl : ∀ d ∈ l, d.data.length ≤ 65535) : Accounts opens (s.next opens l) (all ++ l) := by
  obtain ⟨given, kept, ⟨queue, future, errno, trace⟩⟩ := s
  obtain ⟨h1, h2, h3⟩ := h
  dsimp only at h1 h2 h3
  subst h1
  have hu : ∀ d ∈ queue ++ l, d.data.length ≤ 65535 := by
    intro d hd
    rcases List.mem_append.1 hd with hd | hd
    · exact h2 d hd
    · exact hl d hd
  have hall : ∀ a, givenTo a given ++ kept a ++ recordsOf opens a (queue ++ l) = recordsOf opens a (all ++ l) := by
    intro a
    rw [recordsOf_append, recordsOf_append, ← h3 a, List.append_assoc _ (recordsOf opens a queue)]
  unfold Sessions.next
  dsimp only
  cases hq : queue ++ l with
  | nil =>
    rw [hq] at hall
    exact ⟨rfl, by simp, hall⟩
  | cons d q =>
    rw [hq] at hall hu
    dsimp only
    have hu' : ∀ x ∈ q, x.data.length ≤ 65535 := fun x hx => hu x (by simp [hx])
    cases hk : kept d.src with
    | cons r rest =>
      refine ⟨rfl, hu, fun a => ?_⟩
      rw [← hall a]
      show givenTo a (given ++ [(d.src, r)]) ++ (if a = d.src then rest else kept a) ++ recordsOf opens a (d :: q) = _
      rw [givenTo_append]
      by_cases ha : a = d.src
      · rw [if_pos ha, ha, hk]
        simp [givenTo]
      · rw [if_neg ha]
        have : givenTo a [(d.src, r)] = [] := by simp [givenTo, Ne.symm ha]
        rw [this, List.append_nil]
    | nil =>
      rw [recv_first (opens d.src) d.src d q none trace rfl (hu d (by simp))]
      cases ho : opens d.src d.data with
      | nil =>
        refine ⟨rfl, hu', fun a => ?_⟩
        rw [← hall a]
        show givenTo a given ++ (if a = d.src then [] else kept a) ++ recordsOf opens a q = _
        rw [recordsOf_cons]
        by_cases ha : a = d.src
        · rw [if_pos ha, if_pos ha.symm, ha, hk, ho]
          simp
        · rw [if_neg ha, if_neg (Ne.symm ha)]
          simp
      | cons r rest =>
        refine ⟨rfl, hu', fun a => ?_⟩
        rw [← hall a]
        show givenTo a (given ++ [(d.src, r)]) ++ (if a = d.src then rest else kept a) ++ recordsOf opens a q = _
        rw [recordsOf_cons, givenTo_append]
        by_cases ha : a = d.src
        · rw [if_pos ha, if_pos ha.symm, ha, hk, ho]
          simp [givenTo]
        · rw [if_neg ha, if_neg (Ne.symm ha)]
          have : givenTo a [(d.src, r)] = [] := by simp [givenTo, Ne.symm ha]
          rw [this]
          simp

theorem accounts (opens : Addr → Bytes → List Bytes) (as : List (List Dgram)) (hu : UdpAll as) : Accounts opens (sessions opens as) as.flatten := by
  have h : ∀ (as : List (List Dgram)) (s : Sessions) (all : List Dgram), UdpAll as → Accounts opens s all →
      Accounts opens (as.foldl (Sessions.next opens) s) (all ++ as.flatten) := by
    intro as
    induction as with
    | nil => intro s all _ h; simpa using h
    | cons l as ih =>
      intro s all hu h
      have := ih (s.next opens l) _ (fun x hx => hu x (by simp [hx])) (h.next l (hu l (by simp)))
      rw [List.foldl_cons, List.flatten_cons, ← List.append_assoc]
      exact this
  have := h as ⟨[], fun _ => [], ⟨[], [], none, []⟩⟩ [] hu ⟨rfl, by simp, fun a => rfl⟩
  rw [List.nil_append] at this
  exact this

theorem kept_none {opens : Addr → Bytes → List Bytes} (h1 : ∀ a d, (opens a d).length ≤ 1) {s : Sessions} (hk : ∀ a, s.kept a = [])
    (hf : s.world.future = []) (l : List Dgram) (hu : ∀ d ∈ s.world.queue ++ l, d.data.length ≤ 65535) (a : Addr) : (s.next opens l).kept a = [] := by
  obtain ⟨given, kept, ⟨queue, future, errno, trace⟩⟩ := s
  dsimp only at hk hf hu
  subst hf
  unfold Sessions.next
  dsimp only
  cases hq : queue ++ l with
  | nil => exact hk a
  | cons d q =>
    rw [hq] at hu
    dsimp only
    rw [hk, recv_first (opens d.src) d.src d q none trace rfl (hu d (by simp))]
    have := h1 d.src d.data
    cases ho : opens d.src d.data with
    | nil => show (if a = d.src then [] else kept a) = []; rw [hk]; simp
    | cons r rest =>
      rw [ho] at this
      have : rest = [] := by
        cases rest with
        | nil => rfl
        | cons x y => simp at this
      show (if a = d.src then rest else kept a) = []
      rw [hk, this]
      simp

theorem call_fst (a : Addr) (p : Lib (α × β)) (u : World) : p.fst.call a u = ((p.call a u).1.1, (p.call a u).2) := by
  induction p generalizing u with
  | done r f => rfl
  | pull len k ih => exact ih _ _
  | wait k ih => exact ih _ _
  | push b k ih => exact ih _ _

end FreeCoAP.Server.Dtls
