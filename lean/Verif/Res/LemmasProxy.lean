import Verif.Res.LemmasLib
import Verif.Res.ModelProxy

/-!
# The functions of the proxy keep the rules
-/

namespace FreeCoAP.Res

variable {x : Bool} {F : St}

/-! ## Small pieces -/

/-- A call that is looked at and cannot fail. -/
theorem Safe.attrSet {α : Type} {Q : α → St → Prop} {o : St} {n : Nat} {k : Int × Nat → Prog α} (hn : (.attr, n) ∈ o.held ∨ (.attr, n) ∈ F.held)
    (h : ∀ y, Safe x F o (k (0, y)) Q) : Safe x F o (Res.sys .attrSet [n] >>= k) Q := by
  intro hs
  refine ⟨⟨⟨_, rfl, by simpa using hn⟩, fun r y e he => by cases he⟩, fun r y hh => ?_⟩
  have : r = 0 := hh.2.2.1 (by simp)
  subst this
  exact ⟨hs, h y hs⟩

theorem lockCreate_safe (hF : F.Sound) : Safe x F none' lockCreate (Leaves fun k => one (.mutex, k)) := by
  unfold lockCreate
  refine Safe.make rfl (by has_) (fun r y hr _ => ?_) (fun a _ _ _ => ?_)
  · rw [if_pos hr]; exact Safe.pure rfl
  rw [if_neg (by simp)]
  show Safe x F (one (.mattr, a)) _ _
  refine Safe.sys rfl ⟨_, rfl, by simp [one]⟩ (fun r y => ?_)
  split
  · exact one_free rfl hF (Safe.pure rfl)
  refine Safe.make rfl ⟨_, rfl, by simp [one]⟩ (fun r y hr _ => ?_) (fun m _ _ _ => ?_)
  · rw [if_pos hr]; exact one_free rfl hF (Safe.pure rfl)
  rw [if_neg (by simp)]
  refine Safe.free_ (o' := one (.mutex, m)) rfl hF (by simp [one, St.plus]) (by simp [one, St.plus]) (by simp [one, St.plus, St.minus]) ?_
  intro r y hr
  have : r = 0 := hr (by simp)
  subst this
  exact Safe.pure rfl

theorem threadCtxCreate_safe (_ : F.Sound) : Safe x F none' threadCtxCreate (Leaves fun c => one (.attr, c)) := by
  unfold threadCtxCreate
  refine Safe.make rfl (by has_) (fun r y hr _ => ?_) (fun a _ _ _ => ?_)
  · rw [if_pos hr]; exact Safe.pure rfl
  rw [if_neg (by simp)]
  refine Safe.attrSet (by simp [St.plus]) (fun y => ?_)
  exact Safe.pure rfl

/-- Destroying one of several objects that have no references. -/
theorem Safe.drop {α : Type} {op : Op} {kd : Kind} {n : Nat} {k : Unit → Prog α} {Q : α → St → Prop} {l : List Handle} (l' : List Handle)
    (hm : frees op = some kd) (hF : F.Sound) (hh : (kd, n) ∈ l) (he : l.erase (kd, n) = l') (h : Safe x F ⟨l', []⟩ (k ()) Q) :
    Safe x F ⟨l, []⟩ (run_ op [n] >>= k) Q :=
  Safe.free hm hF hh (by simp) (by rw [St.minus, he]; rfl) h

/-! ## The objects of `tls.c` -/

/-- The parameters, if there are any. -/
def dhObj : Option Nat → St
  | none => none'
  | some h => one (.dh, h)

theorem dhFree_safe {α : Type} {dh : Option Nat} {o : St} {k : Unit → Prog α} {Q : α → St → Prop} (hF : F.Sound) (hr : o.refs = [])
    (h : Safe x F o (k ()) Q) : Safe x F (dhObj dh + o) (dhFree dh >>= k) Q := by
  cases dh with
  | none => exact h
  | some d =>
    obtain ⟨held, refs⟩ := o
    cases hr
    refine Safe.free (o' := ⟨held, []⟩) rfl hF (by simp [dhObj, one, add_held]) (by simp [dhObj, one, add_refs]) ?_ h
    simp [St.minus, dhObj, one, add_held, add_refs]

/-- The objects of a `tls_client_t` or a `tls_server_t`. -/
def Tls.objs (t : Tls) : St := ⟨[(.mutex, t.lock), (.mem, t.cache)], []⟩ + (dhObj t.dh + one (.cred, t.cred))

theorem one_sound {h : Handle} (hl : ofLib h.1 = true → (.lib, 0) ∈ F.held) (hn : h.1 ≠ .lib → h ∉ F.held) (hF : F.Sound) : (one h + F).Sound :=
  sound_plus (h := h) hF hl hn

theorem tlsFail_safe {cred : Nat} {dh : Option Nat} (hF : F.Sound) :
    Safe x F (dhObj dh + one (.cred, cred)) (dhFree dh >>= fun _ => run_ .credFree [cred] >>= fun _ => pure none) (Leaves Tls.objs) :=
  dhFree_safe hF rfl (one_free rfl hF (Safe.pure rfl))

theorem tlsCache_safe {cred : Nat} {dh : Option Nat} (hF : F.Sound) :
    Safe x F (dhObj dh + one (.cred, cred)) (tlsCache cred dh) (Leaves Tls.objs) := by
  unfold tlsCache
  refine Safe.malloc (fun y => ?_) (fun r m hr _ _ _ => ?_)
  · rw [if_pos rfl]; exact tlsFail_safe hF
  rw [if_neg hr]
  dsimp only
  refine (Safe.frame (fun hs => lockCreate_safe hs)).bind ?_
  rintro (_ | k) o' ⟨o', rfl, ho⟩
  · cases ho
    cases dh with
    | none =>
      show Safe x F ⟨[(.mem, m), (.cred, cred)], []⟩ _ _
      exact Safe.drop [(.cred, cred)] rfl hF (by simp) (by simp) (tlsFail_safe (dh := none) hF)
    | some d =>
      show Safe x F ⟨[(.mem, m), (.dh, d), (.cred, cred)], []⟩ _ _
      exact Safe.drop [(.dh, d), (.cred, cred)] rfl hF (by simp) (by simp) (tlsFail_safe (dh := some d) hF)
  · cases ho
    exact Safe.pure rfl

theorem tlsKey_safe {cred : Nat} (hF : F.Sound) (hl : (.lib, 0) ∈ F.held) : Safe false F (one (.cred, cred)) (tlsKey cred) (Leaves Tls.objs) := by
  unfold tlsKey
  refine Safe.sys rfl ⟨_, rfl, by simp [one]⟩ (fun r y => ?_)
  split
  · exact one_free rfl hF (Safe.pure rfl)
  refine Safe.make rfl ⟨_, rfl, by simp [hl]⟩ (fun r y hr _ => ?_) (fun h _ _ _ => ?_)
  · rw [if_pos hr]; exact one_free rfl hF (Safe.pure rfl)
  rw [if_neg (by simp)]
  dsimp only
  show Safe false F (dhObj (some h) + one (.cred, cred)) _ _
  refine Safe.sys rfl ⟨_, rfl, by simp [dhObj, one, add_held]⟩ (fun r y => ?_)
  split
  · exact tlsFail_safe (dh := some h) hF
  refine Safe.setDh (by simp [dhObj, one, add_held]) (by simp [dhObj, one, add_held]) ?_
  rw [if_neg (by simp)]
  exact tlsCache_safe hF

theorem tlsClientCreate_safe {auth key : Bool} (hF : F.Sound) (hl : (.lib, 0) ∈ F.held) :
    Safe false F none' (tlsClientCreate auth key) (Leaves Tls.objs) := by
  unfold tlsClientCreate
  refine Safe.make rfl ⟨_, rfl, by simp [hl]⟩ (fun r y hr _ => ?_) (fun c _ _ _ => ?_)
  · rw [if_pos hr]; exact Safe.pure rfl
  rw [if_neg (by simp)]
  dsimp only
  show Safe false F (one (.cred, c)) _ _
  refine Safe.sys rfl ⟨_, rfl, by simp [one]⟩ (fun r y => ?_)
  split
  · exact one_free rfl hF (Safe.pure rfl)
  split
  · exact tlsKey_safe hF hl
  · exact tlsCache_safe (dh := none) hF

/-- Without a key file the strict rules are kept too. -/
theorem tlsClientCreate_strict {auth : Bool} (hF : F.Sound) (hl : (.lib, 0) ∈ F.held) :
    Safe x F none' (tlsClientCreate auth false) (Leaves Tls.objs) := by
  unfold tlsClientCreate
  refine Safe.make rfl ⟨_, rfl, by simp [hl]⟩ (fun r y hr _ => ?_) (fun c _ _ _ => ?_)
  · rw [if_pos hr]; exact Safe.pure rfl
  rw [if_neg (by simp)]
  dsimp only
  show Safe x F (one (.cred, c)) _ _
  refine Safe.sys rfl ⟨_, rfl, by simp [one]⟩ (fun r y => ?_)
  split
  · exact one_free rfl hF (Safe.pure rfl)
  rw [if_neg (by simp)]
  exact tlsCache_safe (dh := none) hF

theorem tlsServerCreate_safe {auth trust : Bool} (hF : F.Sound) (hl : (.lib, 0) ∈ F.held) :
    Safe false F none' (tlsServerCreate auth trust) (Leaves Tls.objs) := by
  unfold tlsServerCreate
  refine Safe.make rfl ⟨_, rfl, by simp [hl]⟩ (fun r y hr _ => ?_) (fun c _ _ _ => ?_)
  · rw [if_pos hr]; exact Safe.pure rfl
  rw [if_neg (by simp)]
  dsimp only
  show Safe false F (one (.cred, c)) _ _
  split
  · refine Safe.sys rfl ⟨_, rfl, by simp [one]⟩ (fun r y => ?_)
    split
    · exact one_free rfl hF (Safe.pure rfl)
    · exact tlsKey_safe hF hl
  · exact tlsKey_safe hF hl

theorem tlsClientDestroy_safe {t : Tls} (hF : F.Sound) : Safe x F t.objs (tlsClientDestroy t) (fun _ o => o = none') := by
  obtain ⟨c, dh, m, k⟩ := t
  have h0 : Safe x F (one (.cred, c)) (run_ .credFree [c]) (fun _ o => o = none') := Safe.last (one_free rfl hF (Safe.pure rfl))
  unfold tlsClientDestroy
  cases dh with
  | none =>
    refine Safe.drop [(.mem, m), (.cred, c)] rfl hF (by simp) (by simp [dhObj, one, none', add_held]) ?_
    refine Safe.drop [(.cred, c)] rfl hF (by simp) (by simp) ?_
    exact dhFree_safe (dh := none) (k := fun _ => run_ .credFree [c]) hF rfl h0
  | some d =>
    refine Safe.drop [(.mem, m), (.dh, d), (.cred, c)] rfl hF (by simp) (by simp [dhObj, one, none', add_held]) ?_
    refine Safe.drop [(.dh, d), (.cred, c)] rfl hF (by simp) (by simp) ?_
    exact dhFree_safe (dh := some d) (k := fun _ => run_ .credFree [c]) hF rfl h0

theorem tlsServerDestroy_safe {t : Tls} (hF : F.Sound) : Safe x F t.objs (tlsServerDestroy t) (fun _ o => o = none') := by
  obtain ⟨c, dh, m, k⟩ := t
  unfold tlsServerDestroy
  have h0 : Safe x F ⟨[(.mem, m), (.cred, c)], []⟩ (run_ .credFree [c] >>= fun _ => run_ .free [m]) (fun _ o => o = none') := by
    refine Safe.drop [(.mem, m)] rfl hF (by simp) (by simp) ?_
    exact Safe.last (one_free rfl hF (Safe.pure rfl))
  cases dh with
  | none =>
    refine Safe.drop [(.mem, m), (.cred, c)] rfl hF (by simp) (by simp [dhObj, one, none', add_held]) ?_
    exact h0
  | some d =>
    refine Safe.drop [(.mem, m), (.dh, d), (.cred, c)] rfl hF (by simp) (by simp [dhObj, one, none', add_held]) ?_
    exact Safe.drop [(.mem, m), (.cred, c)] rfl hF (by simp) (by simp) h0

theorem tlsInit_safe : Safe x F none' tlsInit (fun r o => match r with
    | none => o = none' ∨ o = one (.lib, 0)
    | some p => o = ⟨[(.prio, p), (.lib, 0)], []⟩) := by
  unfold tlsInit
  refine Safe.globalInit (fun r y hr => ?_) (fun y => ?_)
  · rw [if_pos hr]; exact Safe.pure (.inl rfl)
  rw [if_neg (by simp)]
  refine Safe.make rfl ⟨_, rfl, by simp [St.plus]⟩ (fun r y hr _ => ?_) (fun p _ _ _ => ?_)
  · rw [if_pos hr]; exact Safe.pure (.inr rfl)
  rw [if_neg (by simp)]
  exact Safe.pure rfl

theorem tlsDeinit_safe {p : Nat} (hF : F.Sound) : Safe x F ⟨[(.prio, p), (.lib, 0)], []⟩ (tlsDeinit p) (fun _ o => o = none') := by
  unfold tlsDeinit
  refine Safe.free (o' := one (.lib, 0)) rfl hF (by simp) (by simp) (by simp [St.minus, one]) ?_
  exact Safe.last (globalDeinit_safe hF (Safe.pure rfl))

/-! ## Sockets -/

theorem sockHandshake_safe {o : St} {s sd : Nat} (h1 : (.session, s) ∈ o.held ∨ (.session, s) ∈ F.held)
    (h2 : (.fd, sd) ∈ o.held ∨ (.fd, sd) ∈ F.held) : ∀ n, Safe x F o (sockHandshake s sd n) (fun _ o' => o' = o)
  | 0 => Safe.cut
  | n + 1 => by
    rw [sockHandshake]
    refine Safe.sys rfl (by has_) (fun r y => ?_)
    dsimp only
    repeat' split
    all_goals first | exact Safe.pure rfl | skip
    refine Safe.sys rfl (by has_) (fun r y => ?_)
    dsimp only
    repeat' split
    all_goals first | exact Safe.pure rfl | skip
    exact sockHandshake_safe h1 h2 n

theorem setNonBlocking_safe {o : St} {sd : Nat} (h : (.fd, sd) ∈ o.held ∨ (.fd, sd) ∈ F.held) :
    Safe x F o (setNonBlocking sd) (fun _ o' => o' = o) := by
  unfold setNonBlocking
  refine Safe.sys rfl (by has_) (fun r y => ?_)
  split
  · exact Safe.pure rfl
  refine Safe.sys rfl (by has_) (fun r y => ?_)
  split <;> exact Safe.pure rfl

/-- The objects of a socket: the session refers to priorities and credentials that others have. -/
def Sock.objs (prio cred : Nat) (s : Sock) : St :=
  ⟨[(.session, s.session), (.fd, s.sd)], [((.session, s.session), (.cred, cred)), ((.session, s.session), (.prio, prio))]⟩

/-- Destroying a session, whatever it refers to. -/
theorem deinit_safe {α : Type} {s sd prio cred : Nat} {refs : List (Handle × Handle)} {k : Unit → Prog α} {Q : α → St → Prop} (hF : F.Sound)
    (hr : ∀ t ∈ refs, t = ((.session, s), (.cred, cred)) ∨ t = ((.session, s), (.prio, prio))) (h : Safe x F (fdObj sd) (k ()) Q) :
    Safe x F ⟨[(.session, s), (.fd, sd)], refs⟩ (run_ .deinit [s] >>= k) Q := by
  refine Safe.free (o' := fdObj sd) rfl hF (by simp) ?_ ?_ h
  · intro t ht
    rcases hr t ht with rfl | rfl <;> simp
  · have h1 : refs.filter (fun t => decide (t.1 ≠ (.session, s))) = [] := by
      refine List.filter_eq_nil_iff.2 (fun t ht => ?_)
      rcases hr t ht with rfl | rfl <;> simp
    rw [St.minus, h1]
    simp [fdObj, one]

theorem sockFail_safe {s sd prio cred : Nat} {refs : List (Handle × Handle)} (hF : F.Sound)
    (hr : ∀ t ∈ refs, t = ((.session, s), (.cred, cred)) ∨ t = ((.session, s), (.prio, prio))) :
    Safe x F ⟨[(.session, s), (.fd, sd)], refs⟩ (sockFail s sd) (Leaves (Sock.objs prio cred)) :=
  deinit_safe hF hr (one_free rfl hF (Safe.pure rfl))

theorem sockShake_safe {auth client : Bool} {s sd prio cred fuel : Nat} {name : Option Nat} (hF : F.Sound) (hl : (.lib, 0) ∈ F.held) :
    Safe x F (Sock.objs prio cred ⟨sd, s, client⟩) (sockShake auth client s sd name fuel) (Leaves (Sock.objs prio cred)) := by
  unfold sockShake
  refine (sockHandshake_safe (by simp [Sock.objs]) (by simp [Sock.objs]) fuel).bind ?_
  rintro b o' rfl
  split
  · exact sockFail_safe hF (by simp)
  split
  · refine (Safe.frame (fun hs => verifyPeer_safe (x := x) (s := s) (name := name) hs ?_ ?_)).bind ?_
    · exact List.mem_append_right _ hl
    · simp [add_held, Sock.objs]
    rintro b o' ⟨o', rfl, rfl⟩
    rw [none_add]
    split
    · refine Safe.run rfl ⟨_, rfl, by simp [Sock.objs]⟩ ?_
      exact sockFail_safe hF (by simp)
    · exact Safe.pure rfl
  · exact Safe.pure rfl

theorem sockCred_safe {auth client cached : Bool} {s sd prio cred fuel : Nat} {name : Option Nat} (hF : F.Sound) (hl : (.lib, 0) ∈ F.held)
    (hc : (.cred, cred) ∈ F.held) :
    Safe x F ⟨[(.session, s), (.fd, sd)], [((.session, s), (.prio, prio))]⟩ (sockCred auth client cached cred s sd name fuel)
      (Leaves (Sock.objs prio cred)) := by
  unfold sockCred
  refine Safe.set (.inl ⟨rfl, rfl⟩) (by simp) (.inr hc) (fun r y hr => ?_) (fun y => ?_)
  · rw [if_pos hr]; exact sockFail_safe hF (by simp)
  rw [if_neg (by simp)]
  show Safe x F (Sock.objs prio cred ⟨sd, s, client⟩) _ _
  split
  · refine Safe.sys rfl ⟨_, rfl, by simp [Sock.objs]⟩ (fun r y => ?_)
    split
    · exact sockFail_safe hF (by simp)
    · exact sockShake_safe hF hl
  · exact sockShake_safe hF hl

theorem sockOpen__safe {auth client cached : Bool} {sd prio cred fuel : Nat} {name : Option Nat} (hF : F.Sound) (hl : (.lib, 0) ∈ F.held)
    (hc : (.cred, cred) ∈ F.held) (hp : (.prio, prio) ∈ F.held) :
    Safe x F (fdObj sd) (sockOpen_ auth client cached prio cred sd name fuel) (Leaves (Sock.objs prio cred)) := by
  unfold sockOpen_
  refine (setNonBlocking_safe (by simp [fdObj, one])).bind ?_
  rintro b o' rfl
  split
  · exact one_free rfl hF (Safe.pure rfl)
  refine Safe.make rfl ⟨_, rfl, by simp [hl]⟩ (fun r y hr _ => ?_) (fun s _ _ _ => ?_)
  · rw [if_pos hr]; exact one_free rfl hF (Safe.pure rfl)
  rw [if_neg (by simp)]
  dsimp only
  show Safe x F ⟨[(.session, s), (.fd, sd)], []⟩ _ _
  refine Safe.set (.inr ⟨rfl, rfl⟩) (by simp) (.inr hp) (fun r y hr => ?_) (fun y => ?_)
  · rw [if_pos hr]; exact sockFail_safe hF (by simp)
  rw [if_neg (by simp)]
  exact sockCred_safe hF hl hc

/-- What opening a socket leaves. -/
def OpenLeaves (prio cred : Nat) (r : Opened) (o : St) : Prop :=
  match r with
  | .ok s => o = s.objs prio cred
  | .again | .failed => o = none'

theorem sockOpenFrom_safe {auth cached : Bool} {prio cred fuel : Nat} {name : Option Nat} (hF : F.Sound) (hl : (.lib, 0) ∈ F.held)
    (hc : (.cred, cred) ∈ F.held) (hp : (.prio, prio) ∈ F.held) :
    Safe x F none' (sockOpenFrom auth cached prio cred name fuel) (OpenLeaves prio cred) := by
  unfold sockOpenFrom
  refine Safe.fd (by simp) (by has_) (fun y => ?_) (fun n y _ _ _ => ?_)
  · rw [if_pos (by simp)]; exact Safe.pure rfl
  rw [if_neg (by simp)]
  dsimp only
  rw [Int.toNat_natCast]
  show Safe x F (fdObj n) _ _
  refine Safe.sys rfl ⟨_, rfl, by simp [fdObj, one]⟩ (fun r y => ?_)
  split
  · exact one_free rfl hF (Safe.pure rfl)
  refine (sockOpen__safe hF hl hc hp).bind ?_
  rintro (_ | s) o' rfl <;> exact Safe.pure rfl

theorem sockOpenLoop_safe {auth cached : Bool} {prio cred fuel : Nat} {name : Option Nat} (hF : F.Sound) (hl : (.lib, 0) ∈ F.held)
    (hc : (.cred, cred) ∈ F.held) (hp : (.prio, prio) ∈ F.held) :
    ∀ addrs, Safe x F none' (sockOpenLoop auth cached prio cred name fuel addrs) (Leaves (Sock.objs prio cred))
  | [] => Safe.pure rfl
  | false :: rest => sockOpenLoop_safe hF hl hc hp rest
  | true :: rest => by
    rw [sockOpenLoop]
    refine (sockOpenFrom_safe hF hl hc hp).bind ?_
    rintro (s | _ | _) o' rfl
    · exact Safe.pure rfl
    · exact sockOpenLoop_safe hF hl hc hp rest
    · exact Safe.pure rfl

theorem sockOpen_safe {auth cached : Bool} {prio cred fuel : Nat} {name : Option Nat} {addrs : List Bool} (hF : F.Sound) (hl : (.lib, 0) ∈ F.held)
    (hc : (.cred, cred) ∈ F.held) (hp : (.prio, prio) ∈ F.held) :
    Safe x F none' (sockOpen auth cached prio cred name fuel addrs) (Leaves (Sock.objs prio cred)) := by
  unfold sockOpen
  refine Safe.make rfl (by has_) (fun r y _ hr => ?_) (fun a _ _ _ => ?_)
  · rw [if_pos (hr rfl)]; exact Safe.pure rfl
  rw [if_neg (by simp)]
  dsimp only
  show Safe x F (one (.addrs, a)) _ _
  refine (Safe.frame (fun hs => sockOpenLoop_safe (x := x) hs (List.mem_append_right _ hl) (List.mem_append_right _ hc)
    (List.mem_append_right _ hp) addrs)).bind ?_
  rintro (_ | s) o' ⟨o', rfl, ho⟩
  · cases ho
    exact one_free rfl hF (Safe.pure rfl)
  · cases ho
    refine Safe.free (o' := s.objs prio cred) rfl hF (by simp [add_held, one]) (by simp [add_refs, Sock.objs, one]) ?_ (Safe.pure rfl)
    simp [St.minus, add_held, add_refs, Sock.objs, one]

theorem byeLoop_safe {o : St} {s sd : Nat} (h1 : (.session, s) ∈ o.held ∨ (.session, s) ∈ F.held)
    (h2 : (.fd, sd) ∈ o.held ∨ (.fd, sd) ∈ F.held) : ∀ n, Safe x F o (byeLoop s sd n) (fun _ o' => o' = o)
  | 0 => Safe.cut
  | n + 1 => by
    rw [byeLoop]
    refine Safe.sys rfl (by has_) (fun r y => ?_)
    dsimp only
    repeat' split
    all_goals first | exact Safe.pure rfl | skip
    refine Safe.sys rfl (by has_) (fun r y => ?_)
    dsimp only
    split
    · exact Safe.pure rfl
    · exact byeLoop_safe h1 h2 n

/-- The session data, if there are any. -/
def dataObj : Option Nat → St
  | none => none'
  | some d => one (.mem, d)

theorem sockData_safe {s : Sock} {o : St} (h : (.session, s.session) ∈ o.held) :
    Safe x F o (sockData s) (fun d o' => o' = dataObj d + o) := by
  unfold sockData
  split
  · refine Safe.make rfl ⟨_, rfl, by simp [h]⟩ (fun r y hr _ => ?_) (fun d _ _ _ => ?_)
    · rw [if_neg hr]; exact Safe.pure rfl
    · rw [if_pos rfl]; exact Safe.pure rfl
  · exact Safe.pure rfl

theorem sockEnd_safe {s : Sock} {prio cred : Nat} (hF : F.Sound) :
    Safe x F (s.objs prio cred) (run_ .sleep [] >>= fun _ => run_ .deinit [s.session] >>= fun _ => run_ .close [s.sd]) (fun _ o => o = none') := by
  refine Safe.run rfl ⟨_, rfl, by simp⟩ ?_
  refine deinit_safe (prio := prio) (cred := cred) hF (by simp) ?_
  exact Safe.last (one_free rfl hF (Safe.pure rfl))

theorem sockClose_safe {s : Sock} {prio cred fuel : Nat} (hF : F.Sound) :
    Safe x F (s.objs prio cred) (sockClose s fuel) (fun _ o => o = none') := by
  unfold sockClose
  refine (sockData_safe (by simp [Sock.objs])).bind ?_
  rintro d o' rfl
  refine (byeLoop_safe (by simp [Sock.objs, add_held]) (by simp [Sock.objs, add_held]) fuel).bind ?_
  rintro _ o' rfl
  cases d with
  | none => exact sockEnd_safe hF
  | some d =>
    refine Safe.free (o' := s.objs prio cred) rfl hF (by simp [add_held, dataObj, one]) (by simp [add_refs, dataObj, Sock.objs, one]) ?_ (sockEnd_safe hF)
    simp [St.minus, add_held, add_refs, Sock.objs, one, dataObj]

theorem ssockOpen_safe (hF : F.Sound) : Safe x F none' ssockOpen (Leaves fdObj) := by
  unfold ssockOpen
  refine Safe.fd (by simp) (by has_) (fun y => ?_) (fun n y _ _ _ => ?_)
  · rw [if_pos (by simp)]; exact Safe.pure rfl
  rw [if_neg (by simp)]
  dsimp only
  rw [Int.toNat_natCast]
  show Safe x F (fdObj n) _ _
  refine Safe.sys rfl ⟨_, rfl, by simp [fdObj, one]⟩ (fun r y => ?_)
  split
  · exact one_free rfl hF (Safe.pure rfl)
  refine Safe.sys rfl ⟨_, rfl, by simp [fdObj, one]⟩ (fun r y => ?_)
  split
  · exact one_free rfl hF (Safe.pure rfl)
  refine Safe.sys rfl ⟨_, rfl, by simp [fdObj, one]⟩ (fun r y => ?_)
  split
  · exact one_free rfl hF (Safe.pure rfl)
  refine (setNonBlocking_safe (by simp [fdObj, one])).bind ?_
  rintro b o' rfl
  split
  · exact one_free rfl hF (Safe.pure rfl)
  · exact Safe.pure rfl

theorem acceptLoop_safe {ss : Nat} (h0 : (.fd, 0) ∈ F.held) (hs : (.fd, ss) ∈ F.held) : ∀ n, Safe x F none' (acceptLoop ss n) (Leaves fdObj)
  | 0 => Safe.cut
  | n + 1 => by
    rw [acceptLoop]
    refine Safe.fd (by simp) (by has_) (fun y => ?_) (fun m y _ hm _ => ?_)
    · rw [if_neg (by simp)]
      dsimp only
      repeat' split
      all_goals first | exact Safe.pure rfl | skip
      refine Safe.sys rfl (by has_) (fun r y => ?_)
      dsimp only
      repeat' split
      all_goals first | exact Safe.pure rfl | skip
      exact acceptLoop_safe h0 hs n
    · have : m ≠ 0 := by rintro rfl; exact hm h0
      rw [if_pos (by dsimp only; omega)]
      dsimp only
      rw [Int.toNat_natCast]
      exact Safe.pure rfl

theorem ssockAccept_safe {auth : Bool} {prio cred ss fuel : Nat} (hF : F.Sound) (h0 : (.fd, 0) ∈ F.held) (hs : (.fd, ss) ∈ F.held)
    (hl : (.lib, 0) ∈ F.held) (hc : (.cred, cred) ∈ F.held) (hp : (.prio, prio) ∈ F.held) :
    Safe x F none' (ssockAccept auth prio cred ss fuel) (Leaves (Sock.objs prio cred)) := by
  unfold ssockAccept
  refine (acceptLoop_safe h0 hs fuel).bind ?_
  rintro (_ | sd) o' rfl
  · exact Safe.pure rfl
  · exact sockOpen__safe hF hl hc hp

end FreeCoAP.Res
