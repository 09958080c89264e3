import Verif.Res.Rules
import Verif.Res.Model

/-!
# The functions of the library keep the rules
-/

namespace FreeCoAP.Res

/-- What a call needs is there. -/
macro "has_" : tactic => `(tactic| exact ⟨_, rfl, by simp [St.plus, St.link, *]⟩)

/-- The objects after one of them has been destroyed. -/
macro "off_" : tactic => `(tactic| simp [St.minus, St.plus, St.link, none', *])

variable {x : Bool} {F : St}

/-! ## Handshake and certificate -/

theorem listenTimeout_safe {o : St} {sd : Nat} (h : (.fd, sd) ∈ o.held ∨ (.fd, sd) ∈ F.held) :
    Safe x F o (listenTimeout sd) (fun _ o' => o' = o) := by
  unfold listenTimeout
  refine Safe.sys rfl (by has_) (fun r y => ?_)
  exact Safe.pure rfl

theorem handshakeLoop_safe {o : St} {s sd : Nat} (h1 : (.session, s) ∈ o.held ∨ (.session, s) ∈ F.held)
    (h2 : (.fd, sd) ∈ o.held ∨ (.fd, sd) ∈ F.held) : ∀ n, Safe x F o (handshakeLoop s sd n) (fun _ o' => o' = o)
  | 0 => Safe.pure rfl
  | n + 1 => by
    rw [handshakeLoop]
    refine Safe.sys rfl (by has_) (fun r y => ?_)
    dsimp only
    repeat' split
    all_goals first | exact Safe.pure rfl | skip
    refine Safe.sys rfl (by has_) (fun r y => ?_)
    refine (listenTimeout_safe h2).bind ?_
    rintro b o' rfl
    split
    · exact handshakeLoop_safe h1 h2 n
    · exact Safe.pure rfl

theorem handshake_safe {o : St} {s sd : Nat} (h1 : (.session, s) ∈ o.held ∨ (.session, s) ∈ F.held)
    (h2 : (.fd, sd) ∈ o.held ∨ (.fd, sd) ∈ F.held) : Safe x F o (handshake s sd) (fun _ o' => o' = o) :=
  handshakeLoop_safe h1 h2 60

/-- One object. -/
def one (h : Handle) : St := ⟨[h], []⟩

theorem one_free {α : Type} {op : Op} {kd : Kind} {n : Nat} {k : Unit → Prog α} {Q : α → St → Prop} (hm : frees op = some kd) (hF : F.Sound)
    (h : Safe x F none' (k ()) Q) : Safe x F (one (kd, n)) (run_ op [n] >>= k) Q :=
  Safe.free hm hF (by simp [one]) (by simp [one]) (by simp [St.minus, one, none']) h

theorem verifyTimes_safe {crt : Nat} {name : Option Nat} (hF : F.Sound) :
    Safe x F (one (.crt, crt)) (verifyTimes crt name) (fun _ o => o = none') := by
  have h0 : ∀ b : Bool, Safe x F (one (.crt, crt)) (run_ .crtDeinit [crt] >>= fun _ => pure b) (fun _ o => o = none') :=
    fun b => one_free rfl hF (Safe.pure rfl)
  unfold verifyTimes
  refine Safe.sys rfl (by has_) (fun r y => ?_)
  refine Safe.sys rfl ⟨_, rfl, by simp [one]⟩ (fun r y => ?_)
  split
  · exact h0 _
  refine Safe.sys rfl ⟨_, rfl, by simp [one]⟩ (fun r y => ?_)
  split
  · exact h0 _
  cases name with
  | none => exact h0 _
  | some n =>
    refine Safe.sys rfl ⟨_, rfl, by simp [one]⟩ (fun r y => ?_)
    split <;> exact h0 _

theorem verifyCert_safe {s : Nat} {name : Option Nat} (hF : F.Sound) (hl : (.lib, 0) ∈ F.held) (h1 : (.session, s) ∈ F.held) :
    Safe x F none' (verifyCert s name) (fun _ o => o = none') := by
  unfold verifyCert
  refine Safe.make rfl (by has_) (fun r y hr _ => ?_) (fun y _ _ _ => ?_)
  · rw [if_pos hr]; exact Safe.pure rfl
  · rw [if_neg (by simp)]
    refine Safe.sys rfl (by has_) (fun r y' => ?_)
    split
    · exact one_free rfl hF (Safe.pure rfl)
    refine Safe.sys rfl (by has_) (fun r y' => ?_)
    split
    · exact one_free rfl hF (Safe.pure rfl)
    exact verifyTimes_safe hF

theorem verifyPeer_safe {s : Nat} {name : Option Nat} (hF : F.Sound) (hl : (.lib, 0) ∈ F.held) (h1 : (.session, s) ∈ F.held) :
    Safe x F none' (verifyPeer s name) (fun _ o => o = none') := by
  unfold verifyPeer
  refine Safe.sys rfl (by has_) (fun r y => ?_)
  dsimp only
  repeat' split
  all_goals first | exact Safe.pure rfl | skip
  refine Safe.sys rfl (by has_) (fun r y => ?_)
  split
  · exact Safe.pure rfl
  exact verifyCert_safe hF hl h1

/-! ## The client -/

/-- The objects of GnuTLS of a client. -/
def Dtls.objs (d : Dtls) : St :=
  ⟨[(.session, d.session), (.prio, d.prio), (.cred, d.cred), (.lib, 0)],
    [((.session, d.session), (.prio, d.prio)), ((.session, d.session), (.cred, d.cred))]⟩

/-- Credentials and the library. -/
def credLib (c : Nat) : St := ⟨[(.cred, c), (.lib, 0)], []⟩

theorem globalDeinit_safe {α : Type} {k : Unit → Prog α} {Q : α → St → Prop} (hF : F.Sound) (h : Safe x F none' (k ()) Q) :
    Safe x F (one (.lib, 0)) (run_ .globalDeinit [0] >>= k) Q :=
  Safe.globalDeinit hF (by simp [one]) (by simp [one]) (by simp [one]) (by simp [St.minus, one, none']) h

theorem freeCred_safe {c : Nat} (hF : F.Sound) : Safe x F (credLib c) (freeCred c) (fun _ o => o = none') := by
  unfold freeCred
  refine Safe.free (o' := one (.lib, 0)) rfl hF (by simp [credLib]) (by simp [credLib]) (by simp [St.minus, credLib, one]) ?_
  exact Safe.last (globalDeinit_safe hF (Safe.pure rfl))

/-- Priorities, credentials and the library. -/
def prioCred (p c : Nat) : St := ⟨[(.prio, p), (.cred, c), (.lib, 0)], []⟩

theorem prioCred_safe {p c : Nat} (hF : F.Sound) :
    Safe x F (prioCred p c) (run_ .prioDeinit [p] >>= fun _ => freeCred c) (fun _ o => o = none') :=
  Safe.free (o' := credLib c) rfl hF (by simp [prioCred]) (by simp [prioCred]) (by simp [St.minus, prioCred, credLib]) (freeCred_safe hF)

/-- A session, whatever it refers to. -/
theorem freeDtls_safe {d : Dtls} {refs : List (Handle × Handle)}
    (hr : ∀ t ∈ refs, t = ((.session, d.session), (.prio, d.prio)) ∨ t = ((.session, d.session), (.cred, d.cred))) (hF : F.Sound) :
    Safe x F ⟨d.objs.held, refs⟩ (freeDtls d) (fun _ o => o = none') := by
  unfold freeDtls
  refine Safe.free (o' := prioCred d.prio d.cred) rfl hF (by simp [Dtls.objs]) ?_ ?_ (prioCred_safe hF)
  · intro t ht
    rcases hr t ht with rfl | rfl <;> simp
  · have h1 : refs.filter (fun t => decide (t.1 ≠ (.session, d.session))) = [] := by
      refine List.filter_eq_nil_iff.2 (fun t ht => ?_)
      rcases hr t ht with rfl | rfl <;> simp
    rw [St.minus, h1]
    simp [Dtls.objs, prioCred]

/-- What a function that creates something leaves: nothing if it fails, and the objects if it succeeds. -/
def Leaves {β : Type} (objs : β → St) (r : Option β) (o : St) : Prop :=
  match r with
  | none => o = none'
  | some b => o = objs b

/-- Releasing everything and failing. -/
theorem fail {β : Type} {objs : β → St} {o : St} {p : Prog Unit} (h : Safe x F o p (fun _ o => o = none')) :
    Safe x F o (p >>= fun _ => pure none) (Leaves objs) := by
  refine h.bind ?_
  rintro _ o' rfl
  exact Safe.pure rfl

theorem fail2 {β γ : Type} {objs : β → St} {o : St} {p : Prog γ} {q : γ → Prog Unit} (h : Safe x F o (p >>= q) (fun _ o => o = none')) :
    Safe x F o (p >>= fun a => q a >>= fun _ => pure none) (Leaves objs) := by
  rw [← bind_assoc]
  exact fail h

theorem clientSession_safe {sd c p : Nat} {name : Option Nat} (hF : F.Sound) (hsd : (.fd, sd) ∈ F.held) :
    Safe x F (prioCred p c) (clientSession sd c p name) (Leaves Dtls.objs) := by
  unfold clientSession
  refine Safe.make rfl (by exact ⟨_, rfl, by simp [prioCred]⟩) (fun r y hr _ => ?_) (fun s _ _ _ => ?_)
  · rw [if_pos hr]; exact fail2 (prioCred_safe hF)
  rw [if_neg (by simp)]
  dsimp only
  have hf : ∀ refs : List (Handle × Handle), (∀ t ∈ refs, t = ((.session, s), (.prio, p)) ∨ t = ((.session, s), (.cred, c))) →
      Safe x F ⟨[(.session, s), (.prio, p), (.cred, c), (.lib, 0)], refs⟩ (freeDtls ⟨s, p, c⟩ >>= fun _ => pure none) (Leaves Dtls.objs) :=
    fun refs hr => fail (freeDtls_safe (d := ⟨s, p, c⟩) hr hF)
  refine Safe.set (.inl ⟨rfl, rfl⟩) (by simp [St.plus]) (by simp [St.plus, prioCred]) (fun r y hr => ?_) (fun y => ?_)
  · rw [if_pos hr]; exact hf [] (by simp)
  rw [if_neg (by simp)]
  refine Safe.set (.inr ⟨rfl, rfl⟩) (by simp [St.plus, St.link]) (by simp [St.plus, St.link, prioCred]) (fun r y hr => ?_) (fun y => ?_)
  · rw [if_pos hr]; exact hf _ (by simp [prioCred, St.plus])
  rw [if_neg (by simp)]
  show Safe x F (Dtls.objs ⟨s, p, c⟩) _ _
  refine (handshake_safe (by simp [Dtls.objs]) (.inr hsd)).bind ?_
  rintro b o' rfl
  split
  · exact hf _ (by simp)
  refine (Safe.frame (fun hs => verifyPeer_safe (x := x) (s := s) (name := name) hs ?_ ?_)).bind ?_
  · simp [add_held, Dtls.objs]
  · simp [add_held, Dtls.objs]
  rintro b o' ⟨o', rfl, rfl⟩
  rw [none_add]
  split
  · exact hf _ (by simp)
  exact Safe.pure rfl

theorem file_safe {op : Op} {given : Bool} {c : Nat} {o : St} (hop : op = .setTrust ∨ op = .setCrl) (h : (.cred, c) ∈ o.held) :
    Safe x F o (file op given c) (fun _ o' => o' = o) := by
  unfold file
  split
  · rcases hop with rfl | rfl <;> exact Safe.sys rfl (by has_) (fun r y => Safe.pure rfl)
  · exact Safe.pure rfl

theorem clientKey_safe {sd c : Nat} {name : Option Nat} (hF : F.Sound) (hsd : (.fd, sd) ∈ F.held) :
    Safe x F (credLib c) (clientKey sd c name) (Leaves Dtls.objs) := by
  unfold clientKey
  refine Safe.sys rfl ⟨_, rfl, by simp [credLib]⟩ (fun r y => ?_)
  split
  · exact fail (freeCred_safe hF)
  refine Safe.make rfl ⟨_, rfl, by simp [credLib]⟩ (fun r y hr _ => ?_) (fun p _ _ _ => ?_)
  · rw [if_pos hr]; exact fail (freeCred_safe hF)
  rw [if_neg (by simp)]
  exact clientSession_safe hF hsd

theorem clientDtlsCreate_safe {sd : Nat} {trust crl : Bool} {name : Option Nat} (hF : F.Sound) (hsd : (.fd, sd) ∈ F.held) :
    Safe x F none' (clientDtlsCreate sd trust crl name) (Leaves Dtls.objs) := by
  unfold clientDtlsCreate
  refine Safe.globalInit (fun r y hr => ?_) (fun y => ?_)
  · rw [if_pos hr]; exact Safe.pure rfl
  rw [if_neg (by simp)]
  refine Safe.make rfl ⟨_, rfl, by simp [St.plus]⟩ (fun r y hr _ => ?_) (fun c _ _ _ => ?_)
  · rw [if_pos hr]; exact globalDeinit_safe hF (Safe.pure rfl)
  rw [if_neg (by simp)]
  show Safe x F (credLib c) _ _
  refine (file_safe (.inl rfl) (by simp [credLib])).bind ?_
  rintro b o' rfl
  split
  · exact fail (freeCred_safe hF)
  refine (file_safe (.inr rfl) (by simp [credLib])).bind ?_
  rintro b o' rfl
  split
  · exact fail (freeCred_safe hF)
  exact clientKey_safe hF hsd

theorem clientDtlsDestroy_safe {sd : Nat} {d : Dtls} (hF : F.Sound) (hsd : (.fd, sd) ∈ F.held) :
    Safe x F d.objs (clientDtlsDestroy sd d) (fun _ o => o = none') := by
  unfold clientDtlsDestroy
  refine Safe.run rfl ⟨_, rfl, by simp [Dtls.objs, hsd]⟩ ?_
  exact freeDtls_safe (by simp) hF

/-- A descriptor. -/
def fdObj (sd : Nat) : St := one (.fd, sd)

theorem clientConnect_safe (hF : F.Sound) : ∀ addrs, Safe x F none' (clientConnect addrs) (Leaves fdObj)
  | [] => Safe.pure rfl
  | false :: rest => clientConnect_safe hF rest
  | true :: rest => by
    rw [clientConnect]
    refine Safe.fd (by simp) (by has_) (fun y => ?_) (fun n y _ _ _ => ?_)
    · rw [if_pos (by simp)]; exact clientConnect_safe hF rest
    rw [if_neg (by simp)]
    dsimp only
    rw [Int.toNat_natCast]
    refine Safe.sys rfl (by has_) (fun r y => ?_)
    split
    · exact one_free rfl hF (clientConnect_safe hF rest)
    · exact Safe.pure rfl

/-- The objects of a client. -/
def Client.objs (c : Client) : St := (match c.dtls with | none => none' | some d => d.objs) + ⟨[(.fd, c.timer), (.fd, c.sd)], []⟩

theorem two_free {α : Type} {a b : Nat} {k : Unit → Prog α} {Q : α → St → Prop} (hF : F.Sound) (h : Safe x F none' (k ()) Q) :
    Safe x F ⟨[(.fd, a), (.fd, b)], []⟩ (run_ .close [a] >>= fun _ => run_ .close [b] >>= k) Q := by
  refine Safe.free (o' := one (.fd, b)) rfl hF (by simp) (by simp) (by simp [St.minus, one]) ?_
  exact one_free rfl hF h

theorem clientTimer_safe {dtls : Bool} {sd : Nat} {trust crl : Bool} {name : Option Nat} (hF : F.Sound) :
    Safe x F (fdObj sd) (clientTimer dtls sd trust crl name) (Leaves Client.objs) := by
  unfold clientTimer
  refine Safe.fd (by simp) (by has_) (fun y => ?_) (fun t y _ _ _ => ?_)
  · rw [if_pos (by simp)]; exact one_free rfl hF (Safe.pure rfl)
  rw [if_neg (by simp)]
  dsimp only
  rw [Int.toNat_natCast]
  show Safe x F ⟨[(.fd, t), (.fd, sd)], []⟩ _ _
  split
  · refine (Safe.frame (fun hs => clientDtlsCreate_safe (x := x) (trust := trust) (crl := crl) (name := name) hs (sd := sd) ?_)).bind ?_
    · simp [add_held]
    rintro (_ | d) o' ⟨o', rfl, ho⟩
    · cases ho
      exact two_free hF (Safe.pure rfl)
    · cases ho
      exact Safe.pure rfl
  · exact Safe.pure rfl

theorem clientCreate_safe {dtls : Bool} {addrs : List Bool} {trust crl : Bool} {name : Option Nat} (hF : F.Sound) :
    Safe x F none' (clientCreate dtls addrs trust crl name) (Leaves Client.objs) := by
  unfold clientCreate
  refine Safe.make rfl (by has_) (fun r y _ hr => ?_) (fun a _ _ _ => ?_)
  · rw [if_pos (hr rfl)]; exact Safe.pure rfl
  rw [if_neg (by simp)]
  show Safe x F (one (.addrs, a)) _ _
  refine (Safe.frame (fun hs => clientConnect_safe (x := x) hs addrs)).bind ?_
  rintro (_ | sd) o' ⟨o', rfl, ho⟩
  · cases ho
    exact one_free rfl hF (Safe.pure rfl)
  · cases ho
    refine Safe.free (o' := fdObj sd) rfl hF (by simp [add_held, one]) (by simp [add_refs, fdObj, one]) ?_ ?_
    · simp [St.minus, add_held, add_refs, fdObj, one]
    dsimp only
    refine Safe.sys rfl ⟨_, rfl, by simp [fdObj, one]⟩ (fun r y => ?_)
    split
    · exact one_free rfl hF (Safe.pure rfl)
    refine Safe.sys rfl ⟨_, rfl, by simp [fdObj, one]⟩ (fun r y => ?_)
    split
    · exact one_free rfl hF (Safe.pure rfl)
    exact clientTimer_safe hF

/-- A program that releases its own objects beside others of its own. -/
theorem Safe.part {p : Prog Unit} {o G : St} (h : (G + F).Sound → Safe x (G + F) o p (fun _ o => o = none')) (hG : (o + (G + F)).Sound → (G + F).Sound) :
    Safe x F (o + G) p (fun _ o' => o' = G) := by
  intro hs
  rw [add_assoc] at hs
  refine Wp.mono ?_ p _ (Wp.frame (hG hs) p o hs (h (hG hs) hs))
  rintro a T ⟨o', rfl, rfl⟩
  rfl

/-- Objects that do not depend on GnuTLS can be kept when the others go. -/
theorem sound_rest {o G F : St} (hF : F.Sound) (hG : ∀ h ∈ G.held, ofLib h.1 = false) (hr : G.refs = []) (hs : (o + (G + F)).Sound) :
    (G + F).Sound := by
  refine ⟨?_, ?_, ?_⟩
  · rintro ⟨h, hh, hl⟩
    rw [add_held] at hh
    rcases List.mem_append.1 hh with hh | hh
    · rw [hG h hh] at hl; cases hl
    · exact List.mem_append_right _ (hF.lib ⟨h, hh, hl⟩)
  · intro t ht
    rw [add_refs, hr, List.nil_append] at ht
    obtain ⟨h1, h2, h3⟩ := hF.refs t ht
    exact ⟨List.mem_append_right _ h1, List.mem_append_right _ h2, h3⟩
  · have h1 := hs.once
    rw [add_held, List.filter_append, List.nodup_append] at h1
    exact h1.2.1

theorem clientDestroy_safe {c : Client} (hF : F.Sound) : Safe x F c.objs (clientDestroy c) (fun _ o => o = none') := by
  obtain ⟨sd, t, d⟩ := c
  unfold clientDestroy
  cases d with
  | none =>
    show Safe x F ⟨[(.fd, t), (.fd, sd)], []⟩ (pure () >>= _) _
    exact Safe.last (two_free hF (Safe.pure rfl))
  | some d =>
    refine Safe.bind (R := fun _ o' => o' = ⟨[(.fd, t), (.fd, sd)], []⟩) ?_ ?_
    · exact Safe.part (fun hs => clientDtlsDestroy_safe hs (by simp [add_held])) (sound_rest hF (by simp [ofLib]) rfl)
    · rintro _ o' rfl
      exact Safe.last (two_free hF (Safe.pure rfl))

end FreeCoAP.Res
