import Verif.Res.SpecAuth
import Verif.Res.LemmasServer
import Verif.Res.ModelProxy

/-!
# The calls that a function has made when it succeeds
-/

namespace FreeCoAP.Res

/-! ## Runs -/

theorem pure_inv {α : Type} {a b : α} {l : List Ev} (h : Runs (pure a : Prog α) l (some b)) : l = [] ∧ b = a := by
  cases h with
  | ret => exact ⟨rfl, rfl⟩

theorem sys_inv {β : Type} {op : Op} {args : List Nat} {k : Int × Nat → Prog β} {l : List Ev} {b : Option β}
    (h : Runs (sys op args >>= k) l b) : (l = [] ∧ b = none) ∨ ∃ r x l', l = ⟨op, args, r, x⟩ :: l' ∧ Runs (k (r, x)) l' b := by
  cases h with
  | stop => exact .inl ⟨rfl, rfl⟩
  | call r x h => exact .inr ⟨r, x, _, rfl, h⟩

theorem sys_some {β : Type} {op : Op} {args : List Nat} {k : Int × Nat → Prog β} {l : List Ev} {b : β}
    (h : Runs (sys op args >>= k) l (some b)) : ∃ r x l', l = ⟨op, args, r, x⟩ :: l' ∧ Runs (k (r, x)) l' (some b) := by
  rcases sys_inv h with ⟨-, h⟩ | h
  · cases h
  · exact h

theorem run_some {β : Type} {op : Op} {args : List Nat} {k : Unit → Prog β} {l : List Ev} {b : β}
    (h : Runs (run_ op args >>= k) l (some b)) : ∃ r x l', l = ⟨op, args, r, x⟩ :: l' ∧ Runs (k ()) l' (some b) := by
  cases h with
  | call r x h => exact ⟨r, x, _, rfl, h⟩

theorem bind_some {α β : Type} {p : Prog α} {f : α → Prog β} {l : List Ev} {b : β} (h : Runs (p >>= f) l (some b)) :
    ∃ l1 l2 a, l = l1 ++ l2 ∧ Runs p l1 (some a) ∧ Runs (f a) l2 (some b) := by
  rcases h.bind_inv with ⟨-, h⟩ | h
  · cases h
  · exact h

/-- Every call that the program can make satisfies `P`. -/
def Only (P : Op → List Nat → Prop) {α : Type} : Prog α → Prop
  | .ret _ => True
  | .cut => True
  | .call op args k => P op args ∧ ∀ r, Only P (k r)

variable {P : Op → List Nat → Prop}

theorem Only.run {α : Type} {p : Prog α} {l : List Ev} {r : Option α} (h : Only P p) (hr : Runs p l r) : ∀ v ∈ l, P v.op v.args := by
  induction hr with
  | ret => intro v hv; cases hv
  | stop => intro v hv; cases hv
  | call r x _ ih =>
    intro v hv
    rcases List.mem_cons.1 hv with rfl | hv
    · exact h.1
    · exact ih (h.2 _) v hv

theorem Only.pure {α : Type} {a : α} : Only P (Pure.pure a : Prog α) := trivial
theorem Only.cut {α : Type} : Only P (.cut : Prog α) := trivial
theorem Only.sys {α : Type} {op : Op} {args : List Nat} {k : Int × Nat → Prog α} (h : P op args) (hk : ∀ r, Only P (k r)) :
    Only P (Res.sys op args >>= k) := ⟨h, hk⟩
theorem Only.run_ {α : Type} {op : Op} {args : List Nat} {k : Unit → Prog α} (h : P op args) (hk : Only P (k ())) :
    Only P (Res.run_ op args >>= k) := ⟨h, fun _ => hk⟩
theorem Only.one {op : Op} {args : List Nat} (h : P op args) : Only P (Res.run_ op args) := ⟨h, fun _ => trivial⟩
theorem Only.bind {α β : Type} {p : Prog α} {f : α → Prog β} (h : Only P p) (hf : ∀ a, Only P (f a)) : Only P (p >>= f) := by
  induction p with
  | ret a => exact hf a
  | cut => trivial
  | call op args k ih => exact ⟨h.1, fun r => ih r (h.2 r)⟩

theorem Only.ite {α : Type} {c : Prop} [Decidable c] {p q : Prog α} (h : Only P p) (h' : Only P q) : Only P (if c then p else q) := by
  split
  · exact h
  · exact h'

/-- Going through a program without loops. -/
macro "only_" : tactic => `(tactic| repeat' first
  | assumption
  | exact Only.pure
  | exact Only.cut
  | apply Only.ite
  | apply Only.sys
  | apply Only.run_
  | apply Only.one
  | intro _
  | (simp only [ne_eq, reduceCtorEq, not_false_eq_true, false_implies, implies_true]; done)
  | apply Only.bind)

theorem handshakeLoop_only {s sd : Nat} (h1 : P .handshake [s, sd]) (h2 : P .dtlsTimeout [s]) (h3 : P .select [sd]) :
    ∀ n, Only P (handshakeLoop s sd n)
  | 0 => Only.pure
  | n + 1 => by
    have ih := handshakeLoop_only h1 h2 h3 n
    rw [handshakeLoop]
    unfold listenTimeout
    only_

theorem verifyTimes_only {crt : Nat} {name : Option Nat} (h6 : P .time []) (h7 : P .expiration [crt]) (h8 : P .activation [crt])
    (h9 : ∀ n, name = some n → P .checkName [crt, n]) (h10 : P .crtDeinit [crt]) : Only P (verifyTimes crt name) := by
  unfold verifyTimes
  cases name with
  | none => dsimp only; only_
  | some n =>
    have h9 := h9 n rfl
    dsimp only; only_

theorem verifyPeer_only {s : Nat} {name : Option Nat} (h1 : P .verifyPeers [s]) (h2 : P .certType [s]) (h3 : P .crtInit []) (h4 : P .getPeers [s])
    (h5 : ∀ x, P .crtImport [x, s]) (h6 : P .time []) (h7 : ∀ x, P .expiration [x]) (h8 : ∀ x, P .activation [x])
    (h9 : ∀ x n, name = some n → P .checkName [x, n]) (h10 : ∀ x, P .crtDeinit [x]) : Only P (verifyPeer s name) := by
  have h11 : ∀ x, Only P (verifyTimes x name) := fun x => verifyTimes_only h6 (h7 x) (h8 x) (h9 x) (h10 x)
  have h12 : Only P (verifyCert s name) := by
    unfold verifyCert
    refine Only.sys h3 (fun r => ?_)
    have := h11 r.2
    have := h5 r.2
    have := h10 r.2
    only_
  unfold verifyPeer
  only_

/-! ## The certificate -/

theorem testBit_of_and {v b : Nat} (h : v &&& 2 ^ b = 0) : v.testBit b = false := by
  have h1 := Nat.testBit_and v (2 ^ b) b
  rw [h, Nat.zero_testBit, Nat.testBit_two_pow_self, Bool.and_true] at h1
  exact h1.symm

theorem verifyTimes_true {crt : Nat} {name : Option Nat} {l : List Ev} (h : Runs (verifyTimes crt name) l (some true)) :
    ∃ (now until_ since : Int) (x4 x5 x6 x7 x8 : Nat) (named freed : Int), now ≤ until_ ∧ since ≤ now ∧ named ≠ 0 ∧
      l = [⟨.time, [], now, x4⟩, ⟨.expiration, [crt], until_, x5⟩, ⟨.activation, [crt], since, x6⟩] ++
      (match name with | none => [] | some n => [⟨.checkName, [crt, n], named, x7⟩]) ++ [⟨.crtDeinit, [crt], freed, x8⟩] := by
  have hfalse : ∀ l', ¬ Runs (run_ .crtDeinit [crt] >>= fun _ => pure false) l' (some true) := by
    intro l' h
    replace h := run_some h
    obtain ⟨r, x, l', rfl, h⟩ := h
    cases (pure_inv h).2
  unfold verifyTimes at h
  replace h := sys_some h
  obtain ⟨now, x4, l1, rfl, h⟩ := h
  replace h := sys_some h
  obtain ⟨u, x5, l2, rfl, h⟩ := h
  dsimp only at h
  split at h
  · exact absurd h (hfalse _)
  rename_i hu
  replace h := sys_some h
  obtain ⟨a, x6, l3, rfl, h⟩ := h
  dsimp only at h
  split at h
  · exact absurd h (hfalse _)
  rename_i ha
  cases name with
  | none =>
    replace h := run_some h
    obtain ⟨f, x8, l4, rfl, h⟩ := h
    rw [(pure_inv h).1]
    exact ⟨now, u, a, x4, x5, x6, 0, x8, 1, f, by omega, by omega, by decide, rfl⟩
  | some n =>
    replace h := sys_some h
    obtain ⟨c, x7, l4, rfl, h⟩ := h
    dsimp only at h
    split at h
    · exact absurd h (hfalse _)
    rename_i hc
    replace h := run_some h
    obtain ⟨f, x8, l5, rfl, h⟩ := h
    rw [(pure_inv h).1]
    exact ⟨now, u, a, x4, x5, x6, x7, x8, c, f, by omega, by omega, hc, rfl⟩

theorem verifyPeer_true {s : Nat} {name : Option Nat} {l : List Ev} (h : Runs (verifyPeer s name) l (some true)) : Checked s name l := by
  unfold verifyPeer at h
  replace h := sys_some h
  obtain ⟨r, status, l1, rfl, h⟩ := h
  dsimp only at h
  split at h
  · cases (pure_inv h).2
  rename_i hr
  split at h
  · cases (pure_inv h).2
  rename_i h1
  split at h
  · cases (pure_inv h).2
  rename_i h2
  split at h
  · cases (pure_inv h).2
  rename_i h3
  split at h
  · cases (pure_inv h).2
  rename_i h4
  replace h := sys_some h
  obtain ⟨t, x1, l2, rfl, h⟩ := h
  dsimp only at h
  split at h
  · cases (pure_inv h).2
  rename_i ht
  unfold verifyCert at h
  replace h := sys_some h
  obtain ⟨c, crt, l3, rfl, h⟩ := h
  dsimp only at h
  split at h
  · cases (pure_inv h).2
  rename_i hc
  replace h := sys_some h
  obtain ⟨peers, x2, l4, rfl, h⟩ := h
  dsimp only at h
  split at h
  · replace h := run_some h
    obtain ⟨_, _, _, -, h⟩ := h
    cases (pure_inv h).2
  rename_i hp
  replace h := sys_some h
  obtain ⟨i, x3, l5, rfl, h⟩ := h
  dsimp only at h
  split at h
  · replace h := run_some h
    obtain ⟨_, _, _, -, h⟩ := h
    cases (pure_inv h).2
  rename_i hi
  obtain ⟨now, u, a, x4, x5, x6, x7, x8, named, f, hu, ha, hn, rfl⟩ := verifyTimes_true h
  have hr := Classical.not_not.1 hr
  have ht := Classical.not_not.1 ht
  have hc := Classical.not_not.1 hc
  have hi := Classical.not_not.1 hi
  subst hr ht hc hi
  refine ⟨status, crt, now, u, a, x1, x2, x3, x4, x5, x6, x7, x8, peers, named, f, ?_, hp, hu, ha, hn, rfl⟩
  have b1 : status.testBit 1 = false := testBit_of_and (Classical.not_not.1 h1)
  have b2 : status.testBit 6 = false := testBit_of_and (Classical.not_not.1 h2)
  have b3 : status.testBit 7 = false := testBit_of_and (Classical.not_not.1 h3)
  have b4 : status.testBit 5 = false := testBit_of_and (Classical.not_not.1 h4)
  rw [Refused, b1, b2, b3, b4]
  simp

/-- No session is destroyed in these calls. -/
def NoDeinit (l : List Ev) : Prop := ∀ v ∈ l, v.op ≠ .deinit

theorem NoDeinit.nil : NoDeinit [] := fun _ h => by cases h

theorem NoDeinit.cons {e : Ev} {l : List Ev} (he : e.op ≠ .deinit) (hl : NoDeinit l) : NoDeinit (e :: l) := by
  intro v hv
  rcases List.mem_cons.1 hv with rfl | hv
  · exact he
  · exact hl v hv

theorem NoDeinit.append {l m : List Ev} (hl : NoDeinit l) (hm : NoDeinit m) : NoDeinit (l ++ m) := by
  intro v hv
  rcases List.mem_append.1 hv with hv | hv
  · exact hl v hv
  · exact hm v hv

/-- A run that ends with a handshake that succeeded. -/
def Shaken (s sd : Nat) (l : List Ev) : Prop := ∃ l' e, l = l' ++ [⟨.handshake, [s, sd], 0, e⟩] ∧ NoDeinit l'

theorem handshakeLoop_true {s sd : Nat} : ∀ {n : Nat} {l : List Ev}, Runs (handshakeLoop s sd n) l (some true) → Shaken s sd l
  | 0, l, h => by cases (pure_inv h).2
  | n + 1, l, h => by
    rw [handshakeLoop] at h
    replace h := sys_some h
    obtain ⟨r, x, l1, rfl, h⟩ := h
    dsimp only at h
    split at h
    · cases (pure_inv h).2
    split at h
    · rename_i hr
      rw [(pure_inv h).1, hr]
      exact ⟨[], x, rfl, .nil⟩
    split at h
    · cases (pure_inv h).2
    split at h
    · cases (pure_inv h).2
    split at h
    · cases (pure_inv h).2
    split at h
    · cases (pure_inv h).2
    replace h := sys_some h
    obtain ⟨r2, x2, l2, rfl, h⟩ := h
    unfold listenTimeout at h
    rw [bind_assoc] at h
    replace h := sys_some h
    obtain ⟨r3, x3, l3, rfl, h⟩ := h
    change Runs (if decide (0 ≤ r3) = true then _ else _) _ _ at h
    split at h
    · obtain ⟨l', e, rfl, hn⟩ := handshakeLoop_true h
      exact ⟨⟨.handshake, [s, sd], r, x⟩ :: ⟨.dtlsTimeout, [s], r2, x2⟩ :: ⟨.select, [sd], r3, x3⟩ :: l', e, rfl,
        .cons (by simp) (.cons (by simp) (.cons (by simp) hn))⟩
    · cases (pure_inv h).2

theorem sockHandshake_true {s sd : Nat} : ∀ {n : Nat} {l : List Ev}, Runs (sockHandshake s sd n) l (some true) → Shaken s sd l
  | 0, l, h => by cases h
  | n + 1, l, h => by
    rw [sockHandshake] at h
    replace h := sys_some h
    obtain ⟨r, x, l1, rfl, h⟩ := h
    dsimp only at h
    split at h
    · rename_i hr
      rw [(pure_inv h).1, hr]
      exact ⟨[], x, rfl, .nil⟩
    split at h
    · cases (pure_inv h).2
    split at h
    · cases (pure_inv h).2
    split at h
    · cases (pure_inv h).2
    replace h := sys_some h
    obtain ⟨r2, x2, l2, rfl, h⟩ := h
    dsimp only at h
    split at h
    · cases (pure_inv h).2
    split at h
    · cases (pure_inv h).2
    obtain ⟨l', e, rfl, hn⟩ := sockHandshake_true h
    exact ⟨⟨.handshake, [s, sd], r, x⟩ :: ⟨.select, [sd], r2, x2⟩ :: l', e, rfl, .cons (by simp) (.cons (by simp) hn)⟩

/-- The parts of a run in which a session becomes trusted. -/
theorem Trusted.mk {s sd : Nat} {name : Option Nat} {l1 l2 h c l3 : List Ev} (hl2 : NoDeinit l2) (hh : Shaken s sd h) (hc : Checked s name c)
    (hl3 : ∀ v ∈ l3, ¬ (v.op = .deinit ∧ v.args = [s])) : Trusted s sd name (l1 ++ ⟨.init, [], 0, s⟩ :: (l2 ++ (h ++ (c ++ l3)))) := by
  obtain ⟨l', e, rfl, hn⟩ := hh
  exact ⟨l1, l2 ++ l', c, l3, e, by simp, hl2.append hn, hc, hl3⟩

theorem Trusted.after {s sd : Nat} {name : Option Nat} {l : List Ev} (m : List Ev) (h : Trusted s sd name l) : Trusted s sd name (m ++ l) := by
  obtain ⟨l1, l2, c, l3, e, rfl, h1, h2, h3⟩ := h
  exact ⟨m ++ l1, l2, c, l3, e, by simp, h1, h2, h3⟩

theorem Trusted.before {s sd : Nat} {name : Option Nat} {l m : List Ev} (h : Trusted s sd name l)
    (hm : ∀ v ∈ m, ¬ (v.op = .deinit ∧ v.args = [s])) : Trusted s sd name (l ++ m) := by
  obtain ⟨l1, l2, c, l3, e, rfl, h1, h2, h3⟩ := h
  refine ⟨l1, l2, c, l3 ++ m, e, by simp, h1, h2, ?_⟩
  intro v hv
  rcases List.mem_append.1 hv with hv | hv
  · exact h3 v hv
  · exact hm v hv

/-! ## The client -/

theorem freeDtls_none {d : Dtls} {l : List Ev} {e : Dtls} (h : Runs (freeDtls d >>= fun _ => pure (none : Option Dtls)) l (some (some e))) : False := by
  replace h := bind_some h
  obtain ⟨_, _, _, -, -, h⟩ := h
  cases (pure_inv h).2

theorem clientSession_some {sd c p : Nat} {name : Option Nat} {l : List Ev} {d : Dtls} (h : Runs (clientSession sd c p name) l (some (some d))) :
    Trusted d.session sd name l := by
  unfold clientSession at h
  replace h := sys_some h
  obtain ⟨r, s, l1, rfl, h⟩ := h
  dsimp only at h
  split at h
  · replace h := run_some h
    obtain ⟨_, _, _, -, h⟩ := h
    replace h := bind_some h
    obtain ⟨_, _, _, -, -, h⟩ := h
    cases (pure_inv h).2
  rename_i hr
  have hr := Classical.not_not.1 hr
  subst hr
  replace h := sys_some h
  obtain ⟨r1, x1, l2, rfl, h⟩ := h
  dsimp only at h
  split at h
  · exact (freeDtls_none h).elim
  replace h := sys_some h
  obtain ⟨r2, x2, l3, rfl, h⟩ := h
  dsimp only at h
  split at h
  · exact (freeDtls_none h).elim
  replace h := bind_some h
  obtain ⟨l4, l5, b, rfl, hb, h⟩ := h
  split at h
  · exact (freeDtls_none h).elim
  rename_i hb'
  have hb' := eq_true_of_ne_false hb'
  subst hb'
  replace h := bind_some h
  obtain ⟨l6, l7, b, rfl, hb2, h⟩ := h
  split at h
  · exact (freeDtls_none h).elim
  rename_i hb'
  have hb' := eq_true_of_ne_false hb'
  subst hb'
  obtain ⟨rfl, hd⟩ := pure_inv h
  cases hd
  refine Trusted.mk (l1 := []) (l2 := [⟨.credSet, [s, c], r1, x1⟩, ⟨.prioSet, [s, p], r2, x2⟩]) (.cons (by simp) (.cons (by simp) .nil))
    (handshakeLoop_true hb) (verifyPeer_true hb2) (l3 := []) (fun v hv => by cases hv)

theorem clientDtlsCreate_some {sd : Nat} {trust crl : Bool} {name : Option Nat} {l : List Ev} {d : Dtls}
    (h : Runs (clientDtlsCreate sd trust crl name) l (some (some d))) : Trusted d.session sd name l := by
  have hf : ∀ c l, ¬ Runs (freeCred c >>= fun _ => pure (none : Option Dtls)) l (some (some d)) := by
    intro c l h
    replace h := bind_some h
    obtain ⟨_, _, _, -, -, h⟩ := h
    cases (pure_inv h).2
  unfold clientDtlsCreate at h
  replace h := sys_some h
  obtain ⟨r, x, l1, rfl, h⟩ := h
  dsimp only at h
  split at h
  · cases (pure_inv h).2
  replace h := sys_some h
  obtain ⟨r1, c, l2, rfl, h⟩ := h
  dsimp only at h
  split at h
  · replace h := run_some h
    obtain ⟨_, _, _, -, h⟩ := h
    cases (pure_inv h).2
  replace h := bind_some h
  obtain ⟨l3, l4, b, rfl, -, h⟩ := h
  split at h
  · exact (hf _ _ h).elim
  replace h := bind_some h
  obtain ⟨l5, l6, b, rfl, -, h⟩ := h
  split at h
  · exact (hf _ _ h).elim
  unfold clientKey at h
  replace h := sys_some h
  obtain ⟨r2, x2, l7, rfl, h⟩ := h
  dsimp only at h
  split at h
  · exact (hf _ _ h).elim
  replace h := sys_some h
  obtain ⟨r3, p, l8, rfl, h⟩ := h
  dsimp only at h
  split at h
  · exact (hf _ _ h).elim
  have h := clientSession_some h
  have e : ∀ (a b c d : Ev) (l3 l5 l8 : List Ev), a :: b :: (l3 ++ (l5 ++ (c :: d :: l8))) = (a :: b :: (l3 ++ (l5 ++ [c, d]))) ++ l8 := by
    intros; simp
  rw [e]
  exact h.after _

theorem clientTimer_some {dtls : Bool} {sd : Nat} {trust crl : Bool} {name : Option Nat} {l : List Ev} {c : Client}
    (h : Runs (clientTimer dtls sd trust crl name) l (some (some c))) :
    c.sd = sd ∧ c.dtls.isSome = dtls ∧ ∀ d, c.dtls = some d → Trusted d.session sd name l := by
  unfold clientTimer at h
  replace h := sys_some h
  obtain ⟨r, x, l1, rfl, h⟩ := h
  dsimp only at h
  split at h
  · replace h := run_some h
    obtain ⟨_, _, _, -, h⟩ := h
    cases (pure_inv h).2
  split at h
  · rename_i hd
    replace h := bind_some h
    obtain ⟨l2, l3, d, rfl, h1, h⟩ := h
    cases d with
    | none =>
      replace h := run_some h
      obtain ⟨_, _, _, -, h⟩ := h
      replace h := run_some h
      obtain ⟨_, _, _, -, h⟩ := h
      cases (pure_inv h).2
    | some d =>
      obtain ⟨rfl, hc⟩ := pure_inv h
      cases hc
      refine ⟨rfl, hd.symm, fun d' hd' => ?_⟩
      cases hd'
      rw [List.append_nil]
      exact (clientDtlsCreate_some h1).after [_]
  · rename_i hd
    obtain ⟨rfl, hc⟩ := pure_inv h
    cases hc
    exact ⟨rfl, by rw [eq_false_of_ne_true hd]; rfl, fun d' hd' => by cases hd'⟩

theorem clientCreate_some {dtls : Bool} {addrs : List Bool} {trust crl : Bool} {name : Option Nat} {l : List Ev} {c : Client}
    (h : Runs (clientCreate dtls addrs trust crl name) l (some (some c))) :
    c.dtls.isSome = dtls ∧ ∀ d, c.dtls = some d → Trusted d.session c.sd name l := by
  unfold clientCreate at h
  replace h := sys_some h
  obtain ⟨r, x, l1, rfl, h⟩ := h
  dsimp only at h
  split at h
  · cases (pure_inv h).2
  replace h := bind_some h
  obtain ⟨l2, l3, s, rfl, -, h⟩ := h
  replace h := run_some h
  obtain ⟨r1, x1, l4, rfl, h⟩ := h
  cases s with
  | none => cases (pure_inv h).2
  | some sd =>
    dsimp only at h
    replace h := sys_some h
    obtain ⟨r2, x2, l5, rfl, h⟩ := h
    dsimp only at h
    split at h
    · replace h := run_some h
      obtain ⟨_, _, _, -, h⟩ := h
      cases (pure_inv h).2
    replace h := sys_some h
    obtain ⟨r3, x3, l6, rfl, h⟩ := h
    dsimp only at h
    split at h
    · replace h := run_some h
      obtain ⟨_, _, _, -, h⟩ := h
      cases (pure_inv h).2
    obtain ⟨h1, h2, h3⟩ := clientTimer_some h
    refine ⟨h2, fun d hd => ?_⟩
    rw [h1]
    have h4 := (h3 d hd).after (Ev.mk .getaddrinfo [] r x :: (l2 ++ [Ev.mk .freeaddrinfo [x] r1 x1, ⟨.fcntl, [sd], r2, x2⟩, ⟨.fcntl, [sd], r3, x3⟩]))
    simpa using h4

end FreeCoAP.Res
