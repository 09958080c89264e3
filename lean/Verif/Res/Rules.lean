import Verif.Res.Lemmas

/-!
# The rules for each kind of call
-/

namespace FreeCoAP.Res

variable {α : Type} {x : Bool} {F o : St} {Q : α → St → Prop}

/-- Calls that create and destroy nothing, and leave no references. -/
def plain : Op → Bool
  | .connect | .setsockopt | .bind | .listen | .fcntl | .select | .inetNtop | .time | .sleep | .mattrSet | .attrSet | .threadCreate
  | .setTrust | .setCrl | .setKey | .dhGenerate | .setData | .handshake | .dtlsTimeout | .bye | .recv | .verifyPeers | .certType | .getPeers
  | .crtImport | .expiration | .activation | .checkName => true
  | _ => false

theorem plain_none {op : Op} (h : plain op = true) (args : List Nat) (r : Int) (y : Nat) :
    gives ⟨op, args, r, y⟩ = none ∧ takes ⟨op, args, r, y⟩ = none ∧ ties x ⟨op, args, r, y⟩ = none := by
  cases op <;> first | exact ⟨rfl, rfl, rfl⟩ | exact nomatch h

theorem Safe.sys {op : Op} {args : List Nat} {k : Int × Nat → Prog α} (hp : plain op = true) (hn : Has F o op args)
    (h : ∀ r y, Safe x F o (k (r, y)) Q) : Safe x F o (Res.sys op args >>= k) Q :=
  Safe.use hn (fun r y => (plain_none (x := x) hp args r y).1) (fun r y => (plain_none (x := x) hp args r y).2.1)
    (fun r y => (plain_none hp args r y).2.2) h

theorem Safe.run {op : Op} {args : List Nat} {k : Unit → Prog α} (hp : plain op = true) (hn : Has F o op args)
    (h : Safe x F o (k ()) Q) : Safe x F o (run_ op args >>= k) Q :=
  Safe.use hn (fun r y => (plain_none (x := x) hp args r y).1) (fun r y => (plain_none (x := x) hp args r y).2.1)
    (fun r y => (plain_none hp args r y).2.2) (fun _ _ => h)

/-- The calls that create an object, of the kind given, if they return zero. -/
def makes : Op → Option Kind
  | .getaddrinfo => some .addrs
  | .getData => some .mem
  | .mattrInit => some .mattr
  | .mutexInit => some .mutex
  | .attrInit => some .attr
  | .credAlloc => some .cred
  | .dhInit => some .dh
  | .prioInit => some .prio
  | .init => some .session
  | .crtInit => some .crt
  | _ => none

theorem makes_spec {op : Op} {kd : Kind} (h : makes op = some kd) (args : List Nat) (r : Int) (y : Nat) :
    gives ⟨op, args, r, y⟩ = (if r = 0 then some (kd, y) else none) ∧ takes ⟨op, args, r, y⟩ = none ∧ ties x ⟨op, args, r, y⟩ = none ∧
    kd ≠ .lib ∧ (ofLib kd = true → needs op args ≠ none → needs op args = some [(.lib, 0)]) := by
  cases op <;> simp only [makes, reduceCtorEq, Option.some.injEq] at h
  all_goals
    subst h
    refine ⟨rfl, rfl, rfl, by decide, ?_⟩
    first
      | (intro h; simp [ofLib] at h; done)
      | (intro _ hn
         match args with
         | [] => rfl
         | _ :: _ => exact absurd rfl hn)

/-- The object is created, or not. -/
theorem Safe.make {op : Op} {kd : Kind} {args : List Nat} {k : Int × Nat → Prog α} (hm : makes op = some kd) (hn : Has F o op args)
    (h0 : ∀ r y, r ≠ 0 → (op = .getaddrinfo → r < 0) → Safe x F o (k (r, y)) Q)
    (h1 : ∀ y, (kd, y) ∉ o.held → (kd, y) ∉ F.held → (∀ t ∈ o.refs, t.1 ≠ (kd, y) ∧ t.2 ≠ (kd, y)) →
      Safe x F (o.plus (kd, y)) (k (0, y)) Q) : Safe x F o (Res.sys op args >>= k) Q := by
  have hs := makes_spec (x := x) hm args
  refine Safe.get hn (fun r y => (hs r y).2.1) (fun r y => (hs r y).2.2.1) ?_ ?_ ?_
  · intro r y h hg hl
    rw [(hs r y).1] at hg
    split at hg
    · cases hg
      obtain ⟨hs', h2, h3⟩ := hn
      have h4 := (hs r y).2.2.2.2 hl (by rw [h2]; exact Option.some_ne_none _)
      rw [h2] at h4
      cases h4
      exact h3 _ (List.mem_singleton.2 rfl)
    · cases hg
  · intro r y hh hg
    rw [(hs r y).1] at hg
    by_cases hr : r = 0
    · rw [if_pos hr] at hg; cases hg
    · refine h0 r y hr ?_
      rintro rfl
      have := hh.2.1 rfl
      dsimp only at this
      omega
  · intro r y h hh hg hf
    rw [(hs r y).1] at hg
    by_cases hr : r = 0
    · rw [if_pos hr] at hg
      cases hg
      subst hr
      obtain ⟨h3, h4, h5⟩ := hf (hs 0 y).2.2.2.1
      exact h1 y h3 h4 h5
    · rw [if_neg hr] at hg; cases hg

/-- `socket`, `accept` and `timerfd_create`. -/
theorem Safe.fd {op : Op} {args : List Nat} {k : Int × Nat → Prog α} (hm : op ∈ [Op.socket, .accept, .timerfd]) (hn : Has F o op args)
    (h0 : ∀ y, Safe x F o (k (-1, y)) Q)
    (h1 : ∀ (n : Nat) y, (.fd, n) ∉ o.held → (.fd, n) ∉ F.held → (∀ t ∈ o.refs, t.1 ≠ (.fd, n) ∧ t.2 ≠ (.fd, n)) →
      Safe x F (o.plus (.fd, n)) (k ((n : Int), y)) Q) : Safe x F o (Res.sys op args >>= k) Q := by
  have hs : ∀ r y, gives ⟨op, args, r, y⟩ = (if 0 ≤ r then some (.fd, r.toNat) else none) ∧ takes ⟨op, args, r, y⟩ = none ∧
      ties x ⟨op, args, r, y⟩ = none := by
    intro r y
    simp only [List.mem_cons, List.not_mem_nil, or_false] at hm
    rcases hm with rfl | rfl | rfl <;> exact ⟨rfl, rfl, rfl⟩
  refine Safe.get hn (fun r y => (hs r y).2.1) (fun r y => (hs r y).2.2) ?_ ?_ ?_
  · intro r y h hg hl
    rw [(hs r y).1] at hg
    split at hg
    · cases hg; cases hl
    · cases hg
  · intro r y hh hg
    rw [(hs r y).1] at hg
    have h2 := hh.1 hm
    dsimp only at h2
    by_cases hr : 0 ≤ r
    · rw [if_pos hr] at hg; cases hg
    · have : r = -1 := by omega
      subst this
      exact h0 y
  · intro r y h hh hg hf
    rw [(hs r y).1] at hg
    by_cases hr : 0 ≤ r
    · rw [if_pos hr] at hg
      cases hg
      obtain ⟨n, rfl⟩ := Int.eq_ofNat_of_zero_le hr
      obtain ⟨h3, h4, h5⟩ := hf (by simp)
      exact h1 n y h3 h4 h5
    · rw [if_neg hr] at hg; cases hg

/-- `malloc` and `calloc`. -/
theorem Safe.malloc {k : Int × Nat → Prog α} (h0 : ∀ y, Safe x F o (k (0, y)) Q)
    (h1 : ∀ r y, r ≠ 0 → (.mem, y) ∉ o.held → (.mem, y) ∉ F.held → (∀ t ∈ o.refs, t.1 ≠ (.mem, y) ∧ t.2 ≠ (.mem, y)) →
      Safe x F (o.plus (.mem, y)) (k (r, y)) Q) : Safe x F o (Res.sys .malloc [] >>= k) Q := by
  have hs : ∀ r y, gives ⟨.malloc, [], r, y⟩ = (if r ≠ 0 then some (.mem, y) else none) := fun _ _ => rfl
  refine Safe.get ⟨[], rfl, by simp⟩ (fun _ _ => rfl) (fun _ _ => rfl) ?_ ?_ ?_
  · intro r y h hg hl
    rw [hs] at hg
    split at hg
    · cases hg; cases hl
    · cases hg
  · intro r y _ hg
    rw [hs] at hg
    by_cases hr : r = 0
    · subst hr; exact h0 y
    · rw [if_pos hr] at hg; cases hg
  · intro r y h _ hg hf
    rw [hs] at hg
    by_cases hr : r = 0
    · rw [if_neg (not_not_intro hr)] at hg; cases hg
    · rw [if_pos hr] at hg
      cases hg
      obtain ⟨h3, h4, h5⟩ := hf (by simp)
      exact h1 r y hr h3 h4 h5

/-- `gnutls_global_init`. -/
theorem Safe.globalInit {k : Int × Nat → Prog α} (h0 : ∀ r y, r ≠ 0 → Safe x F o (k (r, y)) Q)
    (h1 : ∀ y, Safe x F (o.plus (.lib, 0)) (k (0, y)) Q) : Safe x F o (Res.sys .globalInit [] >>= k) Q := by
  have hs : ∀ r y, gives ⟨.globalInit, [], r, y⟩ = (if r = 0 then some (.lib, 0) else none) := fun _ _ => rfl
  refine Safe.get ⟨[], rfl, by simp⟩ (fun _ _ => rfl) (fun _ _ => rfl) ?_ ?_ ?_
  · intro r y h hg hl
    rw [hs] at hg
    split at hg
    · cases hg; cases hl
    · cases hg
  · intro r y _ hg
    rw [hs] at hg
    by_cases hr : r = 0
    · rw [if_pos hr] at hg; cases hg
    · exact h0 r y hr
  · intro r y h _ hg _
    rw [hs] at hg
    by_cases hr : r = 0
    · rw [if_pos hr] at hg
      cases hg
      subst hr
      exact h1 y
    · rw [if_neg hr] at hg; cases hg

/-- The calls that destroy an object of the kind given. -/
def frees : Op → Option Kind
  | .freeaddrinfo => some .addrs
  | .close => some .fd
  | .free => some .mem
  | .mattrDestroy => some .mattr
  | .mutexDestroy => some .mutex
  | .attrDestroy => some .attr
  | .credFree => some .cred
  | .dhDeinit => some .dh
  | .prioDeinit => some .prio
  | .deinit => some .session
  | .crtDeinit => some .crt
  | _ => none

theorem frees_spec {op : Op} {kd : Kind} (h : frees op = some kd) (n : Nat) (r : Int) (y : Nat) :
    needs op [n] = some [(kd, n)] ∧ gives ⟨op, [n], r, y⟩ = none ∧ takes ⟨op, [n], r, y⟩ = some (kd, n) ∧ ties x ⟨op, [n], r, y⟩ = none ∧
    kd ≠ .lib := by
  cases op <;> simp only [frees, reduceCtorEq, Option.some.injEq] at h <;> (subst h; exact ⟨rfl, rfl, rfl, rfl, by decide⟩)

/-- The object is destroyed. -/
theorem Safe.free_ {op : Op} {kd : Kind} {n : Nat} {k : Int × Nat → Prog α} {o' : St} (hm : frees op = some kd) (hF : F.Sound)
    (hh : (kd, n) ∈ o.held) (hno : ∀ t ∈ o.refs, t.2 ≠ (kd, n)) (he : o.minus (kd, n) = o')
    (h : ∀ r y, (op ∈ [Op.mattrDestroy, .attrSet] → r = 0) → Safe x F o' (k (r, y)) Q) : Safe x F o (Res.sys op [n] >>= k) Q := by
  have hs := frees_spec (x := x) hm n
  subst he
  exact Safe.put hF (hs 0 0).1 hh (fun r y => (hs r y).2.1) (fun r y => (hs r y).2.2.1) (fun r y => (hs r y).2.2.2.1) hno
    (fun hl => absurd (Prod.ext_iff.1 hl).1 (hs 0 0).2.2.2.2) (fun r y hh => h r y (fun ha => hh.2.2.1 ha))

theorem Safe.free {op : Op} {kd : Kind} {n : Nat} {k : Unit → Prog α} {o' : St} (hm : frees op = some kd) (hF : F.Sound)
    (hh : (kd, n) ∈ o.held) (hno : ∀ t ∈ o.refs, t.2 ≠ (kd, n)) (he : o.minus (kd, n) = o')
    (h : Safe x F o' (k ()) Q) : Safe x F o (run_ op [n] >>= k) Q :=
  Safe.free_ (k := fun _ => k ()) hm hF hh hno he (fun _ _ _ => h)

/-- `gnutls_global_deinit`. -/
theorem Safe.globalDeinit {k : Unit → Prog α} {o' : St} (hF : F.Sound)
    (hh : (.lib, 0) ∈ o.held) (hno : ∀ t ∈ o.refs, t.2 ≠ (.lib, 0)) (hl : ∀ e ∈ o.held.erase (.lib, 0), ofLib e.1 = false)
    (he : o.minus (.lib, 0) = o') (h : Safe x F o' (k ()) Q) : Safe x F o (run_ .globalDeinit [0] >>= k) Q := by
  subst he
  exact Safe.put hF rfl hh (fun _ _ => rfl) (fun _ _ => rfl) (fun _ _ => rfl) hno (fun _ => hl) (fun _ _ _ => h)

/-- `gnutls_credentials_set` and `gnutls_priority_set`. -/
theorem Safe.set {op : Op} {kd : Kind} {s n : Nat} {k : Int × Nat → Prog α} (hm : (op = .credSet ∧ kd = .cred) ∨ (op = .prioSet ∧ kd = .prio))
    (h1 : (.session, s) ∈ o.held ∨ (.session, s) ∈ F.held) (h2 : (kd, n) ∈ o.held ∨ (kd, n) ∈ F.held)
    (h3 : ∀ r y, r ≠ 0 → Safe x F o (k (r, y)) Q) (h4 : ∀ y, Safe x F (o.link ((.session, s), (kd, n))) (k (0, y)) Q) :
    Safe x F o (Res.sys op [s, n] >>= k) Q := by
  have hs : ∀ r y, needs op [s, n] = some [(.session, s), (kd, n)] ∧ gives ⟨op, [s, n], r, y⟩ = none ∧ takes ⟨op, [s, n], r, y⟩ = none ∧
      ties x ⟨op, [s, n], r, y⟩ = (if r = 0 then some ((.session, s), (kd, n)) else none) ∧ kd ≠ .lib := by
    intro r y
    rcases hm with ⟨rfl, rfl⟩ | ⟨rfl, rfl⟩ <;> exact ⟨rfl, rfl, rfl, rfl, by decide⟩
  refine Safe.tie ⟨_, (hs 0 0).1, ?_⟩ (fun r y => (hs r y).2.1) (fun r y => (hs r y).2.2.1) ?_ ?_ ?_
  · intro h hh
    rcases List.mem_cons.1 hh with rfl | hh
    · exact h1
    · rw [List.mem_singleton.1 hh]; exact h2
  · intro r y t ht
    rw [(hs r y).2.2.2.1] at ht
    split at ht
    · cases ht; exact ⟨h1, h2, by simp, (hs r y).2.2.2.2⟩
    · cases ht
  · intro r y ht
    rw [(hs r y).2.2.2.1] at ht
    by_cases hr : r = 0
    · rw [if_pos hr] at ht; cases ht
    · exact h3 r y hr
  · intro r y t ht
    rw [(hs r y).2.2.2.1] at ht
    by_cases hr : r = 0
    · rw [if_pos hr] at ht; cases ht; subst hr; exact h4 y
    · rw [if_neg hr] at ht; cases ht

/-- `gnutls_certificate_set_dh_params`. -/
theorem Safe.setDh {c d : Nat} {k : Unit → Prog α} (h1 : (.cred, c) ∈ o.held ∨ (.cred, c) ∈ F.held) (h2 : (.dh, d) ∈ o.held ∨ (.dh, d) ∈ F.held)
    (h : Safe x F (if x = true then o.link ((.cred, c), (.dh, d)) else o) (k ()) Q) : Safe x F o (run_ .setDh [c, d] >>= k) Q := by
  have hs : ∀ r y, ties x ⟨.setDh, [c, d], r, y⟩ = (if x = true then some ((.cred, c), (.dh, d)) else none) := fun _ _ => rfl
  refine Safe.tie ⟨[(.cred, c), (.dh, d)], rfl, ?_⟩ (fun _ _ => rfl) (fun _ _ => rfl) ?_ ?_ ?_
  · intro h hh
    rcases List.mem_cons.1 hh with rfl | hh
    · exact h1
    · rw [List.mem_singleton.1 hh]; exact h2
  · intro r y t ht
    rw [hs] at ht
    split at ht
    · cases ht; exact ⟨h1, h2, by simp, by simp⟩
    · cases ht
  · intro r y ht
    rw [hs] at ht
    split at ht
    · cases ht
    · rename_i hx; rw [if_neg hx] at h; exact h
  · intro r y t ht
    rw [hs] at ht
    split at ht
    · rename_i hx; rw [if_pos hx] at h; cases ht; exact h
    · cases ht

/-- The end of a program. -/
theorem Safe.pure {a : α} (h : Q a o) : Safe x F o (Pure.pure a) Q := Safe.ret h

theorem bind_pure_ : ∀ p : Prog Unit, (p.bind fun _ => .ret ()) = p
  | .ret _ => rfl
  | .cut => rfl
  | .call op args k => by
    rw [Prog.bind]
    congr 1
    funext r
    exact bind_pure_ (k r)

/-- A program whose last call has no result. -/
theorem Safe.last {p : Prog Unit} {Q : Unit → St → Prop} (h : Safe x F o (p >>= fun _ => Pure.pure ()) Q) : Safe x F o p Q := by
  have h1 : (p >>= fun _ => Pure.pure ()) = p := bind_pure_ p
  rw [h1] at h
  exact h

theorem bind_assoc {α β γ : Type} (p : Prog α) (f : α → Prog β) (g : β → Prog γ) : (p >>= f) >>= g = p >>= fun a => f a >>= g := by
  show (p.bind f).bind g = p.bind fun a => (f a).bind g
  induction p with
  | ret a => rfl
  | cut => rfl
  | call op args k ih =>
    rw [Prog.bind, Prog.bind, Prog.bind]
    congr 1
    funext r
    exact ih r

end FreeCoAP.Res
