import Verif.Res.LemmasProxy

/-!
# The listener and the connections keep the rules
-/

namespace FreeCoAP.Res

variable {x : Bool} {F : St}

/-- The objects of a listener. -/
def Listener.objs (l : Listener) : St := ⟨[(.fd, l.ss), (.attr, l.ctx), (.mem, l.mem)], []⟩

theorem listenerNew_safe (hF : F.Sound) : Safe x F none' listenerNew (Leaves Listener.objs) := by
  unfold listenerNew
  refine Safe.malloc (fun y => ?_) (fun r m hr _ _ _ => ?_)
  · rw [if_pos rfl]; exact Safe.pure rfl
  rw [if_neg hr]
  dsimp only
  show Safe x F (one (.mem, m)) _ _
  refine (Safe.frame (fun hs => threadCtxCreate_safe hs)).bind ?_
  rintro (_ | c) o' ⟨o', rfl, ho⟩
  · cases ho
    exact one_free rfl hF (Safe.pure rfl)
  cases ho
  show Safe x F ⟨[(.attr, c), (.mem, m)], []⟩ _ _
  refine (Safe.frame (fun hs => ssockOpen_safe hs)).bind ?_
  rintro (_ | s) o' ⟨o', rfl, ho⟩
  · cases ho
    show Safe x F ⟨[(.attr, c), (.mem, m)], []⟩ _ _
    exact Safe.drop [(.mem, m)] rfl hF (by simp) (by simp) (one_free rfl hF (Safe.pure rfl))
  · cases ho
    exact Safe.pure rfl

theorem listenerDelete_safe {l : Listener} (hF : F.Sound) : Safe x F l.objs (listenerDelete l) (fun _ o => o = none') := by
  unfold listenerDelete
  refine Safe.drop [(.attr, l.ctx), (.mem, l.mem)] rfl hF (by simp) (by simp) ?_
  refine Safe.drop [(.mem, l.mem)] rfl hF (by simp) (by simp) ?_
  exact Safe.last (one_free rfl hF (Safe.pure rfl))

/-! ## Connections -/

/-- The memory of a connection. -/
def Con.mems (c : Con) : St := ⟨[(.mem, c.body), (.mem, c.send), (.mem, c.recv), (.mem, c.mem)], []⟩

/-- The objects of a connection. -/
def Con.objs (prio cred : Nat) (c : Con) : St := c.mems + (c.sock.objs prio cred + one (.mem, c.sockMem))

theorem connectionNew_safe {m : Nat} {s : Sock} (hF : F.Sound) :
    Safe x F none' (connectionNew m s) (fun r o => match r with
      | none => o = none'
      | some c => o = c.mems ∧ c.sock = s ∧ c.sockMem = m) := by
  unfold connectionNew
  refine Safe.malloc (fun y => ?_) (fun r c hr _ _ _ => ?_)
  · rw [if_pos rfl]; exact Safe.pure rfl
  rw [if_neg hr]
  dsimp only
  refine Safe.malloc (fun y => ?_) (fun r r' hr _ _ _ => ?_)
  · rw [if_pos rfl]; exact one_free rfl hF (Safe.pure rfl)
  rw [if_neg hr]
  dsimp only
  refine Safe.malloc (fun y => ?_) (fun r s' hr _ _ _ => ?_)
  · rw [if_pos rfl]
    show Safe x F ⟨[(.mem, r'), (.mem, c)], []⟩ _ _
    exact Safe.drop [(.mem, c)] rfl hF (by simp) (by simp) (one_free rfl hF (Safe.pure rfl))
  rw [if_neg hr]
  dsimp only
  refine Safe.malloc (fun y => ?_) (fun r b hr _ _ _ => ?_)
  · rw [if_pos rfl]
    show Safe x F ⟨[(.mem, s'), (.mem, r'), (.mem, c)], []⟩ _ _
    refine Safe.drop [(.mem, r'), (.mem, c)] rfl hF (by simp) (by simp) ?_
    exact Safe.drop [(.mem, c)] rfl hF (by simp) (by simp) (one_free rfl hF (Safe.pure rfl))
  rw [if_neg hr]
  exact Safe.pure ⟨rfl, rfl, rfl⟩

/-- References between other objects than memory. -/
def NoMem (o : St) : Prop := ∀ t ∈ o.refs, t.1.1 ≠ .mem ∧ t.2.1 ≠ .mem

/-- Freeing memory beside other objects. -/
theorem mem_free {α : Type} {n : Nat} {o : St} {k : Unit → Prog α} {Q : α → St → Prop} (hF : F.Sound) (hn : NoMem o) (h : Safe x F o (k ()) Q) :
    Safe x F (one (.mem, n) + o) (run_ .free [n] >>= k) Q := by
  refine Safe.free (o' := o) rfl hF (by simp [add_held, one]) ?_ ?_ h
  · intro t ht
    have := (hn t (by simpa [add_refs, one] using ht)).2
    intro hh
    rw [hh] at this
    exact this rfl
  · obtain ⟨held, refs⟩ := o
    have h1 : refs.filter (fun t => decide (t.1 ≠ (.mem, n))) = refs := by
      refine List.filter_eq_self.2 (fun t ht => ?_)
      have := (hn t ht).1
      rw [decide_eq_true_eq]
      intro hh
      rw [hh] at this
      exact this rfl
    show St.mk _ _ = St.mk _ _
    rw [add_held, add_refs]
    simp only [one, List.cons_append, List.nil_append, List.erase_cons_head, h1]

theorem Client.noMem (c : Client) : NoMem c.objs := by
  obtain ⟨sd, t, d⟩ := c
  cases d <;> simp [NoMem, Client.objs, add_refs, none', Dtls.objs]

theorem Sock.noMem (prio cred : Nat) (s : Sock) : NoMem (s.objs prio cred) := by simp [NoMem, Sock.objs]

theorem NoMem.one {h : Handle} {o : St} (ho : NoMem o) : NoMem (one h + o) := ho

theorem NoMem.add {o o' : St} (h : NoMem o) (h' : NoMem o') : NoMem (o + o') := by
  intro t ht
  rw [add_refs] at ht
  rcases List.mem_append.1 ht with ht | ht
  · exact h t ht
  · exact h' t ht

/-- The objects of a CoAP client of a connection. -/
def ConClient.objs (c : ConClient) : St := one (.mem, c.port) + (one (.mem, c.host) + c.client.objs)

theorem ConClient.noMem (c : ConClient) : NoMem c.objs := c.client.noMem

theorem conClientCreate_safe {addrs : List Bool} {trust : Bool} (hF : F.Sound) :
    Safe x F none' (conClientCreate addrs trust) (Leaves ConClient.objs) := by
  unfold conClientCreate
  refine (clientCreate_safe hF).bind ?_
  rintro (_ | c) o' ho
  · cases ho; exact Safe.pure rfl
  cases ho
  dsimp only
  refine Safe.malloc (fun y => ?_) (fun r h hr _ _ _ => ?_)
  · rw [if_pos rfl]; exact fail (clientDestroy_safe hF)
  rw [if_neg hr]
  dsimp only
  show Safe x F (one (.mem, h) + c.objs) _ _
  refine Safe.malloc (fun y => ?_) (fun r p hr _ _ _ => ?_)
  · rw [if_pos rfl]
    exact mem_free hF c.noMem (fail (clientDestroy_safe hF))
  rw [if_neg hr]
  exact Safe.pure rfl

theorem conClientDestroy_safe {c : ConClient} (hF : F.Sound) : Safe x F c.objs (conClientDestroy c) (fun _ o => o = none') := by
  unfold conClientDestroy
  exact mem_free hF c.client.noMem.one (mem_free hF c.client.noMem (clientDestroy_safe hF))

/-- The objects of the CoAP client, if there is one. -/
def clientObjs : Option ConClient → St
  | none => none'
  | some c => c.objs

theorem requests_safe {trust : Bool} (hF : F.Sound) : ∀ (k : Option ConClient) (rs : List (Bool × List Bool)),
    Safe x F (clientObjs k) (requests trust k rs) (fun k' o => o = clientObjs k')
  | k, [] => by cases k <;> (rw [requests]; exact Safe.pure rfl)
  | none, r :: rs => by
    rw [requests]
    refine (conClientCreate_safe hF).bind ?_
    rintro (_ | k) o' ho
    · cases ho; exact Safe.pure rfl
    · cases ho; exact requests_safe hF (some k) rs
  | some k, r :: rs => by
    rw [requests]
    split
    · exact requests_safe hF (some k) rs
    refine (conClientDestroy_safe hF).bind ?_
    rintro _ o' rfl
    refine (conClientCreate_safe hF).bind ?_
    rintro (_ | k) o' ho
    · cases ho; exact Safe.pure rfl
    · cases ho; exact requests_safe hF (some k) rs

theorem conClientGone_safe {k : Option ConClient} (hF : F.Sound) : Safe x F (clientObjs k) (conClientGone k) (fun _ o => o = none') := by
  cases k with
  | none => exact Safe.pure rfl
  | some k => exact conClientDestroy_safe hF

/-- `connection_delete` after the CoAP client is gone. -/
theorem connectionEnd_safe {c : Con} {prio cred fuel : Nat} (hF : F.Sound) :
    Safe x F (c.objs prio cred) (run_ .free [c.send] >>= fun _ => run_ .free [c.recv] >>= fun _ => run_ .free [c.body] >>= fun _ =>
      sockClose c.sock fuel >>= fun _ => run_ .free [c.sockMem] >>= fun _ => run_ .free [c.mem]) (fun _ o => o = none') := by
  have hn : NoMem (c.sock.objs prio cred + ⟨[(.mem, c.sockMem), (.mem, c.mem)], []⟩) := (c.sock.noMem prio cred).add (by simp [NoMem])
  refine Safe.same (o' := one (.mem, c.send) + (one (.mem, c.recv) + (one (.mem, c.body) +
    (c.sock.objs prio cred + ⟨[(.mem, c.sockMem), (.mem, c.mem)], []⟩)))) ?_ ?_
  · refine ⟨List.perm_iff_count.2 (fun h => ?_), fun t => ?_⟩
    · simp only [Con.objs, Con.mems, Sock.objs, one, add_held, List.count_append, List.count_cons, List.count_nil]
      omega
    · simp [Con.objs, Con.mems, Sock.objs, one, add_refs]
  refine mem_free hF hn.one.one (mem_free hF hn.one (mem_free hF hn ?_))
  refine Safe.bind (R := fun _ o' => o' = ⟨[(.mem, c.sockMem), (.mem, c.mem)], []⟩) ?_ ?_
  · exact Safe.part (fun hs => sockClose_safe hs) (sound_rest hF (by simp [ofLib]) rfl)
  · rintro _ o' rfl
    refine Safe.drop [(.mem, c.mem)] rfl hF (by simp) (by simp) ?_
    exact Safe.last (one_free rfl hF (Safe.pure rfl))

theorem connectionDelete_safe {c : Con} {k : Option ConClient} {prio cred fuel : Nat} (hF : F.Sound) (hs : (c.objs prio cred + F).Sound) :
    Safe x F (clientObjs k + c.objs prio cred) (connectionDelete c k fuel) (fun _ o => o = none') := by
  unfold connectionDelete
  refine Safe.bind (R := fun _ o' => o' = c.objs prio cred) ?_ ?_
  · exact Safe.part (fun h => conClientGone_safe h) (fun _ => hs)
  · rintro _ o' rfl
    exact connectionEnd_safe hF

/-- The thread of a connection releases everything. -/
theorem connectionThread_safe {trust : Bool} {c : Con} {rs : List (Bool × List Bool)} {prio cred fuel : Nat} (hF : F.Sound) :
    Safe x F (c.objs prio cred) (connectionThread trust c rs fuel) (fun _ o => o = none') := by
  intro hs
  unfold connectionThread
  refine (Safe.frame (fun h => requests_safe h none rs)).bind ?_ hs
  rintro k o' ⟨o', rfl, rfl⟩
  exact connectionDelete_safe hF hs

/-! ## Turns of the listener -/

/-- What a turn leaves: the objects of the connection, if there is one. -/
def TurnLeaves (prio cred : Nat) (r : Turn) (o : St) : Prop :=
  match r with
  | .stop | .skip => o = none'
  | .con c => o = c.objs prio cred

theorem listenerCon_safe {l : Listener} {m : Nat} {s : Sock} {prio cred fuel : Nat} (hF : F.Sound) (hx : (.attr, l.ctx) ∈ F.held) :
    Safe x F (s.objs prio cred + one (.mem, m)) (listenerCon l m s fuel) (TurnLeaves prio cred) := by
  unfold listenerCon
  refine (Safe.frame (fun h => connectionNew_safe h)).bind ?_
  rintro (_ | c) o' ⟨o', rfl, ho⟩
  · cases ho
    rw [none_add]
    refine Safe.bind (R := fun _ o' => o' = one (.mem, m)) ?_ ?_
    · exact Safe.part (fun h => sockClose_safe h) (sound_rest hF (by simp [one, ofLib]) rfl)
    · rintro _ o' rfl
      exact one_free rfl hF (Safe.pure rfl)
  · obtain ⟨rfl, rfl, rfl⟩ := ho
    show Safe x F (c.objs prio cred) _ _
    refine Safe.sys rfl ⟨_, rfl, by simp [hx]⟩ (fun r y => ?_)
    dsimp only
    split
    · intro hs
      refine (connectionDelete_safe (k := none) hF hs).bind ?_ hs
      rintro _ o' rfl
      exact Safe.pure rfl
    · exact Safe.pure rfl

theorem listenerTurn_safe {auth : Bool} {l : Listener} {prio cred fuel : Nat} (hF : F.Sound) (h0 : (.fd, 0) ∈ F.held)
    (hs : (.fd, l.ss) ∈ F.held) (hx : (.attr, l.ctx) ∈ F.held) (hl : (.lib, 0) ∈ F.held) (hc : (.cred, cred) ∈ F.held) (hp : (.prio, prio) ∈ F.held) :
    Safe x F none' (listenerTurn auth prio cred l fuel) (TurnLeaves prio cred) := by
  unfold listenerTurn
  refine Safe.malloc (fun y => ?_) (fun r m hr _ _ _ => ?_)
  · rw [if_pos rfl]; exact Safe.pure rfl
  rw [if_neg hr]
  dsimp only
  show Safe x F (one (.mem, m)) _ _
  refine (Safe.frame (fun h => ssockAccept_safe h (List.mem_append_right _ h0) (List.mem_append_right _ hs) (List.mem_append_right _ hl)
    (List.mem_append_right _ hc) (List.mem_append_right _ hp))).bind ?_
  rintro (_ | s) o' ⟨o', rfl, ho⟩
  · cases ho
    exact one_free rfl hF (Safe.pure rfl)
  · cases ho
    exact listenerCon_safe hF hx

end FreeCoAP.Res
