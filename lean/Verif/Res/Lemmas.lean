import Verif.Res.Spec

/-!
# Reasoning about programs that keep the rules
-/

namespace FreeCoAP.Res

/-- Two collections together. -/
def St.add (S S' : St) : St := ⟨S.held ++ S'.held, S.refs ++ S'.refs⟩

instance : Add St := ⟨St.add⟩

/-- No objects. -/
def none' : St := ⟨[], []⟩

theorem add_held (S S' : St) : (S + S').held = S.held ++ S'.held := rfl
theorem add_refs (S S' : St) : (S + S').refs = S.refs ++ S'.refs := rfl

theorem none_add (S : St) : none' + S = S := rfl

theorem add_assoc (S T U : St) : S + T + U = S + (T + U) := by
  show St.mk _ _ = St.mk _ _
  simp [add_held, add_refs]

/-! ## Order does not matter -/

theorem St.Same.refl (S : St) : S.Same S := ⟨.refl _, fun _ => .rfl⟩
theorem St.Same.symm {S T : St} (h : S.Same T) : T.Same S := ⟨h.1.symm, fun t => (h.2 t).symm⟩
theorem St.Same.trans {S T U : St} (h : S.Same T) (h' : T.Same U) : S.Same U := ⟨h.1.trans h'.1, fun t => (h.2 t).trans (h'.2 t)⟩

theorem St.Same.add {S T U V : St} (h : S.Same T) (h' : U.Same V) : (S + U).Same (T + V) :=
  ⟨h.1.append h'.1, fun t => by rw [add_refs, add_refs, List.mem_append, List.mem_append, h.2 t, h'.2 t]⟩

theorem St.Same.swap (S T : St) : (S + T).Same (T + S) :=
  ⟨List.perm_append_comm, fun t => by rw [add_refs, add_refs, List.mem_append, List.mem_append, Or.comm]⟩

theorem honest_same {S T : St} (h : S.Same T) (e : Ev) : honest S e ↔ honest T e := by
  unfold honest
  constructor <;> rintro ⟨h1, h2, h4, h3⟩ <;> refine ⟨h1, h2, h4, fun x hx hl hm => h3 x hx hl ?_⟩
  · exact (h.1.mem_iff).2 hm
  · exact (h.1.mem_iff).1 hm

theorem proper_of_same {S T : St} (h : S.Same T) {e : Ev} (hp : proper S e) : proper T e := by
  obtain ⟨⟨hs, h1, h2⟩, h3, h4⟩ := hp
  refine ⟨⟨hs, h1, fun x hx => (h.1.mem_iff).1 (h2 x hx)⟩, fun x hx t ht => h3 x hx t ((h.2 t).2 ht), ?_⟩
  rintro h5 ⟨x, hx, hl⟩
  exact ((h.1.erase _).mem_iff).1 (h4 h5 ⟨x, (h.1.mem_iff).2 hx, hl⟩)

theorem proper_same {S T : St} (h : S.Same T) (e : Ev) : proper S e ↔ proper T e :=
  ⟨proper_of_same h, proper_of_same h.symm⟩

theorem effect_same (x : Bool) {S T : St} (h : S.Same T) (e : Ev) : (effect x S e).Same (effect x T e) := by
  unfold effect
  cases takes e <;> cases gives e <;> cases ties x e <;> dsimp only
  · exact h
  · exact ⟨h.1, fun t => by simp [h.2 t]⟩
  · exact ⟨h.1.cons _, h.2⟩
  · exact ⟨h.1.cons _, fun t => by simp [h.2 t]⟩
  · exact ⟨h.1.erase _, fun t => by simp [h.2 t]⟩
  · exact ⟨h.1.erase _, fun t => by simp [h.2 t]⟩
  · exact ⟨(h.1.erase _).cons _, fun t => by simp [h.2 t]⟩
  · exact ⟨(h.1.erase _).cons _, fun t => by simp [h.2 t]⟩

/-- Outcomes that differ in their order only. -/
def SameOut : Outcome → Outcome → Prop
  | .ok S, .ok T => S.Same T
  | .misuse, .misuse => True
  | .dishonest, .dishonest => True
  | _, _ => False

theorem replay_same (x : Bool) {S T : St} (h : S.Same T) (l : List Ev) : SameOut (replay x S l) (replay x T l) := by
  induction l generalizing S T with
  | nil => exact h
  | cons e l ih =>
    rw [replay, replay]
    by_cases h1 : proper S e
    · rw [if_neg (not_not_intro h1), if_neg (not_not_intro ((proper_same h e).1 h1))]
      by_cases h2 : honest S e
      · rw [if_neg (not_not_intro h2), if_neg (not_not_intro ((honest_same h e).1 h2))]
        exact ih (effect_same x h e)
      · rw [if_pos h2, if_pos (fun hh => h2 ((honest_same h e).2 hh))]
        trivial
    · rw [if_pos h1, if_pos (fun hh => h1 ((proper_same h e).2 hh))]
      trivial

theorem replay_append (x : Bool) (S : St) (l1 l2 : List Ev) :
    replay x S (l1 ++ l2) = match replay x S l1 with | .ok S' => replay x S' l2 | o => o := by
  induction l1 generalizing S with
  | nil => rfl
  | cons e l ih =>
    rw [List.cons_append, replay, replay]
    split
    · rfl
    · split
      · rfl
      · exact ih _

theorem lib_same {S T : St} (h : S.Same T) (hs : S.Sound) : T.Sound := by
  refine ⟨?_, ?_, ?_⟩
  · rintro ⟨x, hx, hl⟩
    exact (h.1.mem_iff).1 (hs.lib ⟨x, (h.1.mem_iff).2 hx, hl⟩)
  · intro t ht
    obtain ⟨h1, h2, h3⟩ := hs.refs t ((h.2 t).2 ht)
    exact ⟨(h.1.mem_iff).1 h1, (h.1.mem_iff).1 h2, h3⟩
  · exact (h.1.filter _).nodup_iff.1 hs.once

/-! ## What is kept -/

theorem Keeps.mono {α : Type} {x : Bool} {S : St} {p : Prog α} {Q R : α → St → Prop} (h : Keeps x S p Q) (hqr : ∀ a T, Q a T → R a T) :
    Keeps x S p R := by
  intro l r hr
  have := h l r hr
  split at this
  · exact fun a ha => hqr a _ (this a ha)
  · exact this.elim
  · trivial

/-- The postcondition does not depend on order. -/
def Inv {α : Type} (Q : α → St → Prop) : Prop := ∀ a S T, S.Same T → Q a S → Q a T

theorem Keeps.same {α : Type} {x : Bool} {S T : St} {p : Prog α} {Q : α → St → Prop} (hi : Inv Q) (hst : S.Same T) (h : Keeps x S p Q) :
    Keeps x T p Q := by
  intro l r hr
  have h1 := h l r hr
  have h2 := replay_same x hst l
  cases hS : replay x S l with
  | ok S' =>
    cases hT : replay x T l with
    | ok T' =>
      rw [hS, hT] at h2
      rw [hS] at h1
      exact fun a ha => hi a S' T' h2 (h1 a ha)
    | misuse => rw [hS, hT] at h2; exact h2.elim
    | dishonest => trivial
  | misuse => rw [hS] at h1; exact h1.elim
  | dishonest =>
    cases hT : replay x T l with
    | ok T' => rw [hS, hT] at h2; exact h2.elim
    | misuse => rw [hS, hT] at h2; exact h2.elim
    | dishonest => trivial

theorem Keeps.bind {α β : Type} {x : Bool} {S : St} {p : Prog α} {f : α → Prog β} {R : α → St → Prop} {Q : β → St → Prop} (hp : Keeps x S p R)
    (hf : ∀ a T, R a T → Keeps x T (f a) Q) : Keeps x S (p >>= f) Q := by
  intro l b hr
  rcases hr.bind_inv with ⟨h1, rfl⟩ | ⟨l1, l2, a, rfl, h1, h2⟩
  · have := hp l none h1
    split at this
    · intro a ha; cases ha
    · exact this.elim
    · trivial
  · have h3 := hp l1 (some a) h1
    rw [replay_append]
    split at h3
    · rename_i S' hs
      rw [hs]
      exact hf a S' (h3 a rfl) l2 b h2
    · exact h3.elim
    · rename_i hs; rw [hs]; trivial

theorem Keeps.ret {α : Type} {x : Bool} {S : St} {a : α} {Q : α → St → Prop} (h : Q a S) : Keeps x S (.ret a) Q := by
  intro l r hr
  cases hr with
  | ret => intro a' ha; cases ha; exact h
  | stop => intro a' ha; cases ha

theorem Keeps.cut {α : Type} {x : Bool} {S : St} {Q : α → St → Prop} : Keeps x S (.cut : Prog α) Q := by
  intro l r hr
  cases hr with
  | stop => intro a' ha; cases ha

theorem Keeps.call {α : Type} {x : Bool} {S : St} {op : Op} {args : List Nat} {k : Int × Nat → Prog α} {Q : α → St → Prop}
    (hp : ∀ r y, proper S ⟨op, args, r, y⟩)
    (h : ∀ r y, honest S ⟨op, args, r, y⟩ → Keeps x (effect x S ⟨op, args, r, y⟩) (k (r, y)) Q) : Keeps x S (.call op args k) Q := by
  intro l r hr
  cases hr with
  | stop => intro a' ha; cases ha
  | call r y hr =>
    rw [replay, if_neg (not_not_intro (hp r y))]
    by_cases hh : honest S ⟨op, args, r, y⟩
    · rw [if_neg (not_not_intro hh)]
      exact h r y hh _ _ hr
    · rw [if_pos hh]; trivial

/-- Adding an object. -/
def St.plus (h : Handle) (o : St) : St := ⟨h :: o.held, o.refs⟩

/-- Adding a reference. -/
def St.link (t : Handle × Handle) (o : St) : St := ⟨o.held, t :: o.refs⟩

/-- Removing an object. -/
def St.minus (h : Handle) (o : St) : St := ⟨o.held.erase h, o.refs.filter (fun t => decide (t.1 ≠ h))⟩

theorem sound_plus {S : St} {h : Handle} (hs : S.Sound) (hl : ofLib h.1 = true → (.lib, 0) ∈ S.held) (hn : h.1 ≠ .lib → h ∉ S.held) :
    (S.plus h).Sound := by
  refine ⟨?_, ?_, ?_⟩
  · rintro ⟨x, hx, hlx⟩
    rcases List.mem_cons.1 hx with rfl | hx
    · exact List.mem_cons_of_mem _ (hl hlx)
    · exact List.mem_cons_of_mem _ (hs.lib ⟨x, hx, hlx⟩)
  · intro t ht
    obtain ⟨h1, h2, h3⟩ := hs.refs t ht
    exact ⟨List.mem_cons_of_mem _ h1, List.mem_cons_of_mem _ h2, h3⟩
  · by_cases hk : h.1 = .lib
    · show (List.filter _ (h :: S.held)).Nodup
      rw [List.filter_cons_of_neg (by simp [hk])]
      exact hs.once
    · show (List.filter _ (h :: S.held)).Nodup
      rw [List.filter_cons_of_pos (by simp [hk]), List.nodup_cons]
      exact ⟨fun hm => hn hk (List.mem_filter.1 hm).1, hs.once⟩

theorem sound_minus {S : St} {h : Handle} (hs : S.Sound) (hno : ∀ t ∈ S.refs, t.2 ≠ h)
    (hl : h = (.lib, 0) → (∃ e ∈ S.held, ofLib e.1 = true) → (.lib, 0) ∈ S.held.erase (.lib, 0)) : (S.minus h).Sound := by
  refine ⟨?_, ?_, ?_⟩
  · rintro ⟨e, he, hle⟩
    have he' := List.mem_of_mem_erase he
    by_cases hk : h = (.lib, 0)
    · subst hk
      exact hl rfl ⟨e, he', hle⟩
    · exact (List.mem_erase_of_ne (fun hh => hk hh.symm)).2 (hs.lib ⟨e, he', hle⟩)
  · intro t ht
    obtain ⟨ht, hne⟩ := List.mem_filter.1 ht
    obtain ⟨h1, h2, h3⟩ := hs.refs t ht
    exact ⟨(List.mem_erase_of_ne (by simpa using hne)).2 h1, (List.mem_erase_of_ne (hno t ht)).2 h2, h3⟩
  · exact hs.once.sublist (List.erase_sublist.filter _)

/-- The objects of others do not refer to one's own, and are not one's own. -/
theorem apart {F o : St} {h : Handle} (hF : F.Sound) (hs : (o + F).Sound) (hm : h ∈ o.held) : ∀ t ∈ F.refs, t.1 ≠ h ∧ t.2 ≠ h := by
  intro t ht
  obtain ⟨h1, h2, h3, h4⟩ := hF.refs t ht
  have hnd := hs.once
  rw [add_held, List.filter_append, List.nodup_append] at hnd
  have hd := hnd.2.2
  constructor
  · rintro rfl
    exact hd t.1 (List.mem_filter.2 ⟨hm, by simp [h3]⟩) t.1 (List.mem_filter.2 ⟨h1, by simp [h3]⟩) rfl
  · rintro rfl
    exact hd t.2 (List.mem_filter.2 ⟨hm, by simp [h4]⟩) t.2 (List.mem_filter.2 ⟨h2, by simp [h4]⟩) rfl

/-! ## Programs with objects of their own -/

/-- What a call needs is there. -/
def Has (F o : St) (op : Op) (args : List Nat) : Prop := ∃ hs, needs op args = some hs ∧ ∀ h ∈ hs, h ∈ o.held ∨ h ∈ F.held

/-- A call that one may make with the objects `o` of one's own and the objects `F` that all may use: what it needs is there, and what it destroys
is one's own. -/
def Ready (F o : St) (op : Op) (args : List Nat) : Prop :=
  Has F o op args ∧ ∀ r y h, takes ⟨op, args, r, y⟩ = some h → h ∈ o.held ∧ ∀ t ∈ o.refs, t.2 ≠ h

/-- Each call of the program is one that it may make; when it ends, `Q` holds of what it returns and of the objects that it has then. -/
def Wp {α : Type} (x : Bool) (F : St) (Q : α → St → Prop) : Prog α → St → Prop
  | .ret a, o => ∃ o', o.Same o' ∧ Q a o'
  | .cut, _ => True
  | .call op args k, o => Ready F o op args ∧ ∀ r y, honest (o + F) ⟨op, args, r, y⟩ →
      (effect x o ⟨op, args, r, y⟩ + F).Sound ∧ Wp x F Q (k (r, y)) (effect x o ⟨op, args, r, y⟩)

/-- The program keeps the rules with the objects `o` of its own, and the objects `F` that all may use; when it ends, `Q` holds of what it returns
and of the objects that it has then. -/
def Safe {α : Type} (x : Bool) (F o : St) (p : Prog α) (Q : α → St → Prop) : Prop := (o + F).Sound → Wp x F Q p o

theorem lib_taken {e : Ev} (h : takes e = some (.lib, 0)) : gives e = none ∧ ∀ S, honest S e := by
  obtain ⟨op, args, r, y⟩ := e
  have h1 : op = .globalDeinit := by
    unfold takes at h
    split at h <;> simp_all
  subst h1
  exact ⟨rfl, fun S => ⟨by simp, by simp, by simp, by intro h hg; cases hg⟩⟩

/-- A call that one may make keeps the rules beside all others. -/
theorem Ready.proper {x : Bool} {F G o : St} {op : Op} {args : List Nat} {r : Int} {y : Nat} (h : Ready F o op args) (hG : G.Sound)
    (hs : (o + G).Sound) (hFG : ∀ h ∈ F.held, h ∈ G.held) (hn : honest (o + F) ⟨op, args, r, y⟩ → (effect x o ⟨op, args, r, y⟩ + F).Sound) :
    Res.proper (o + G) ⟨op, args, r, y⟩ := by
  obtain ⟨⟨hs', h1, h2⟩, h3⟩ := h
  refine ⟨⟨hs', h1, fun e he => List.mem_append.2 ((h2 e he).imp_right (hFG e))⟩, ?_, ?_⟩
  · intro h ht t hm
    obtain ⟨h4, h5⟩ := h3 r y h ht
    rcases List.mem_append.1 hm with hm | hm
    · exact h5 t hm
    · exact (apart hG hs h4 t hm).2
  · rintro ht ⟨e, he, hle⟩
    have hm := (h3 r y _ ht).1
    rw [add_held, List.erase_append_left _ hm]
    rcases List.mem_append.1 he with he | he
    · have hne : e ≠ (.lib, 0) := by rintro rfl; cases hle
      have he' : e ∈ (o.held.erase (.lib, 0)) := (List.mem_erase_of_ne hne).2 he
      have h6 : (effect x o ⟨op, args, r, y⟩ + F).held = o.held.erase (.lib, 0) ++ F.held := by
        rw [add_held, effect, ht, (lib_taken ht).1]
        cases ties x ⟨op, args, r, y⟩ <;> rfl
      have := (hn ((lib_taken ht).2 _)).lib ⟨e, by rw [h6]; exact List.mem_append_left _ he', hle⟩
      rw [h6] at this
      rcases List.mem_append.1 this with h7 | h7
      · exact List.mem_append_left _ h7
      · exact List.mem_append_right _ (hFG _ h7)
    · exact List.mem_append_right _ (hG.lib ⟨e, he, hle⟩)

/-- What a call does to one's own objects it does to all. -/
theorem effect_left {x : Bool} {F G o : St} {op : Op} {args : List Nat} {r : Int} {y : Nat} (h : Ready F o op args)
    (ha : ∀ h ∈ o.held, ∀ t ∈ G.refs, t.1 ≠ h) : Res.effect x (o + G) ⟨op, args, r, y⟩ = Res.effect x o ⟨op, args, r, y⟩ + G := by
  have h1 : ∀ h, takes ⟨op, args, r, y⟩ = some h → (o + G).minus h = o.minus h + G := by
    intro h' ht
    have hm := (h.2 r y h' ht).1
    show St.mk _ _ = St.mk _ _
    rw [add_held, add_refs, List.erase_append_left _ hm, List.filter_append]
    congr 2
    exact List.filter_eq_self.2 (fun t ht => by simp [ha h' hm t ht])
  unfold Res.effect
  cases ht : takes ⟨op, args, r, y⟩ with
  | none => cases gives ⟨op, args, r, y⟩ <;> cases ties x ⟨op, args, r, y⟩ <;> rfl
  | some h' =>
    have h2 := h1 h' ht
    rw [St.minus, St.minus] at h2
    have h3 := congrArg St.held h2
    have h4 := congrArg St.refs h2
    dsimp only at h3 h4
    dsimp only
    rw [h3, h4]
    cases gives ⟨op, args, r, y⟩ <;> cases ties x ⟨op, args, r, y⟩ <;> rfl

theorem Ready.effect {x : Bool} {F G o : St} {op : Op} {args : List Nat} {r : Int} {y : Nat} (h : Ready F o op args) (hG : G.Sound)
    (hs : (o + G).Sound) : Res.effect x (o + G) ⟨op, args, r, y⟩ = Res.effect x o ⟨op, args, r, y⟩ + G :=
  effect_left h (fun _ hm t ht => (apart hG hs hm t ht).1)

/-- A result that is possible is possible for those who see less. -/
theorem honest_less {S T : St} {e : Ev} (hst : ∀ h ∈ T.held, h ∈ S.held) (h : honest S e) : honest T e :=
  ⟨h.1, h.2.1, h.2.2.1, fun x hx hl hm => h.2.2.2 x hx hl (hst x hm)⟩

/-- The objects after a call are sound. -/
theorem sound_effect {x : Bool} {F G o : St} {op : Op} {args : List Nat} {r : Int} {y : Nat} (h : Ready F o op args) (hG : G.Sound)
    (hs : (o + G).Sound) (hFG : ∀ h ∈ F.held, h ∈ G.held) (hn : (Res.effect x o ⟨op, args, r, y⟩ + F).Sound) (hh : honest (o + G) ⟨op, args, r, y⟩) :
    (Res.effect x o ⟨op, args, r, y⟩ + G).Sound := by
  have hheld : ∀ e, e ∈ (Res.effect x o ⟨op, args, r, y⟩ + F).held → e ∈ (Res.effect x o ⟨op, args, r, y⟩ + G).held := by
    intro e he
    rcases List.mem_append.1 he with he | he
    · exact List.mem_append_left _ he
    · exact List.mem_append_right _ (hFG e he)
  refine ⟨?_, ?_, ?_⟩
  · rintro ⟨e, he, hle⟩
    rcases List.mem_append.1 he with he | he
    · exact hheld _ (hn.lib ⟨e, List.mem_append_left _ he, hle⟩)
    · exact List.mem_append_right _ (hG.lib ⟨e, he, hle⟩)
  · intro t ht
    rcases List.mem_append.1 ht with ht | ht
    · obtain ⟨h1, h2, h3⟩ := hn.refs t (List.mem_append_left _ ht)
      exact ⟨hheld _ h1, hheld _ h2, h3⟩
    · obtain ⟨h1, h2, h3⟩ := hG.refs t ht
      exact ⟨List.mem_append_right _ h1, List.mem_append_right _ h2, h3⟩
  · rw [← h.effect hG hs]
    have h1 : (match takes ⟨op, args, r, y⟩ with | none => o + G | some h => (o + G).minus h).held.Sublist (o + G).held := by
      cases takes ⟨op, args, r, y⟩ with
      | none => exact .refl _
      | some h => exact List.erase_sublist
    have h2 := hs.once.sublist (h1.filter _)
    have h3 : (Res.effect x (o + G) ⟨op, args, r, y⟩).held = (match gives ⟨op, args, r, y⟩ with
        | none => (match takes ⟨op, args, r, y⟩ with | none => o + G | some h => (o + G).minus h).held
        | some h => h :: (match takes ⟨op, args, r, y⟩ with | none => o + G | some h => (o + G).minus h).held) := by
      unfold Res.effect
      cases takes ⟨op, args, r, y⟩ <;> cases gives ⟨op, args, r, y⟩ <;> cases ties x ⟨op, args, r, y⟩ <;> rfl
    rw [h3]
    cases hg : gives ⟨op, args, r, y⟩ with
    | none => exact h2
    | some h =>
      dsimp only
      by_cases hk : h.1 = .lib
      · rw [List.filter_cons_of_neg (by simp [hk])]; exact h2
      · rw [List.filter_cons_of_pos (by simp [hk]), List.nodup_cons]
        exact ⟨fun hm => hh.2.2.2 h hg hk (h1.mem (List.mem_filter.1 hm).1), h2⟩

/-- The program keeps the rules, whatever else exists. -/
theorem Wp.keeps {α : Type} {x : Bool} {F G : St} {Q : α → St → Prop} (hG : G.Sound) (hFG : ∀ h ∈ F.held, h ∈ G.held) : ∀ (p : Prog α) (o : St),
    Wp x F Q p o → (o + G).Sound → Keeps x (o + G) p (fun a S' => ∃ o', S'.Same (o' + G) ∧ (o' + G).Sound ∧ Q a o')
  | .ret a, o, ⟨o', h1, h2⟩, hs => Keeps.ret ⟨o', h1.add (.refl _), lib_same (h1.add (.refl _)) hs, h2⟩
  | .cut, _, _, _ => Keeps.cut
  | .call op args k, o, ⟨h1, h2⟩, hs => by
    have hless : ∀ h ∈ (o + F).held, h ∈ (o + G).held := by
      intro h hh
      rcases List.mem_append.1 hh with hh | hh
      · exact List.mem_append_left _ hh
      · exact List.mem_append_right _ (hFG h hh)
    intro l a hr
    cases hr with
    | stop => intro a' ha; cases ha
    | call r y hr =>
      rw [replay]
      rw [if_neg (not_not_intro (h1.proper hG hs hFG (fun hh => (h2 r y hh).1)))]
      by_cases hh : honest (o + G) ⟨op, args, r, y⟩
      · obtain ⟨h3, h4⟩ := h2 r y (honest_less hless hh)
        rw [if_neg (not_not_intro hh), h1.effect hG hs]
        exact Wp.keeps hG hFG (k (r, y)) _ h4 (sound_effect h1 hG hs hFG h3 hh) _ _ hr
      · rw [if_pos hh]; trivial

theorem Safe.keeps {α : Type} {x : Bool} {F o : St} {p : Prog α} {Q : α → St → Prop} (hF : F.Sound) (h : Safe x F o p Q) (hs : (o + F).Sound) :
    Keeps x (o + F) p (fun a S' => ∃ o', S'.Same (o' + F) ∧ (o' + F).Sound ∧ Q a o') :=
  Wp.keeps hF (fun _ h => h) p o (h hs) hs

/-! ## Rules -/

theorem Safe.ret {α : Type} {x : Bool} {F o : St} {a : α} {Q : α → St → Prop} (h : Q a o) : Safe x F o (.ret a) Q :=
  fun _ => ⟨o, .refl _, h⟩

theorem Safe.cut {α : Type} {x : Bool} {F o : St} {Q : α → St → Prop} : Safe x F o (.cut : Prog α) Q := fun _ => trivial

theorem Wp.mono {α : Type} {x : Bool} {F : St} {Q R : α → St → Prop} (hqr : ∀ a T, Q a T → R a T) : ∀ (p : Prog α) (o : St),
    Wp x F Q p o → Wp x F R p o
  | .ret _, _, ⟨o', h1, h2⟩ => ⟨o', h1, hqr _ _ h2⟩
  | .cut, _, _ => trivial
  | .call _ _ k, _, ⟨h1, h2⟩ => ⟨h1, fun r y hh => ⟨(h2 r y hh).1, Wp.mono hqr (k (r, y)) _ (h2 r y hh).2⟩⟩

theorem Safe.mono {α : Type} {x : Bool} {F o : St} {p : Prog α} {Q R : α → St → Prop} (h : Safe x F o p Q) (hqr : ∀ a T, Q a T → R a T) :
    Safe x F o p R :=
  fun hs => Wp.mono hqr p o (h hs)

theorem Ready.same {F o o' : St} {op : Op} {args : List Nat} (h : o.Same o') (hr : Ready F o op args) : Ready F o' op args := by
  obtain ⟨⟨hs, h1, h2⟩, h3⟩ := hr
  refine ⟨⟨hs, h1, fun e he => (h2 e he).imp_left (h.1.mem_iff).1⟩, fun r y e he => ?_⟩
  obtain ⟨h4, h5⟩ := h3 r y e he
  exact ⟨(h.1.mem_iff).1 h4, fun t ht => h5 t ((h.2 t).2 ht)⟩

theorem Wp.same {α : Type} {x : Bool} {F : St} {Q : α → St → Prop} : ∀ (p : Prog α) (o o' : St), o.Same o' → Wp x F Q p o → Wp x F Q p o'
  | .ret _, _, _, h, ⟨o', h1, h2⟩ => ⟨o', h.symm.trans h1, h2⟩
  | .cut, _, _, _, _ => trivial
  | .call op args k, o, o', h, ⟨h1, h2⟩ => ⟨h1.same h, fun r y hh => by
      obtain ⟨h3, h4⟩ := h2 r y ((honest_same (h.add (.refl F)) _).2 hh)
      have h5 := effect_same x h ⟨op, args, r, y⟩
      exact ⟨lib_same (h5.add (.refl F)) h3, Wp.same (k (r, y)) _ _ h5 h4⟩⟩

theorem Wp.bind {α β : Type} {x : Bool} {F : St} {f : α → Prog β} {R : α → St → Prop} {Q : β → St → Prop}
    (hf : ∀ a o', R a o' → Safe x F o' (f a) Q) : ∀ (p : Prog α) (o : St), (o + F).Sound → Wp x F R p o → Wp x F Q (p.bind f) o
  | .ret a, o, hs, ⟨o', h1, h2⟩ => Wp.same (f a) o' o h1.symm (hf a o' h2 (lib_same (h1.add (.refl F)) hs))
  | .cut, _, _, _ => trivial
  | .call _ _ k, _, _, ⟨h1, h2⟩ => ⟨h1, fun r y hh => ⟨(h2 r y hh).1, Wp.bind hf (k (r, y)) _ (h2 r y hh).1 (h2 r y hh).2⟩⟩

theorem Safe.bind {α β : Type} {x : Bool} {F o : St} {p : Prog α} {f : α → Prog β} {R : α → St → Prop} {Q : β → St → Prop} (hp : Safe x F o p R)
    (hf : ∀ a o', R a o' → Safe x F o' (f a) Q) : Safe x F o (p >>= f) Q :=
  fun hs => Wp.bind hf p o hs (hp hs)

theorem Safe.same {α : Type} {x : Bool} {F o o' : St} {p : Prog α} {Q : α → St → Prop} (h : o.Same o') (hp : Safe x F o' p Q) : Safe x F o p Q :=
  fun hs => Wp.same p o' o h.symm (hp (lib_same (h.add (.refl F)) hs))

/-- A call that neither creates nor destroys anything. -/
theorem Safe.use {α : Type} {x : Bool} {F o : St} {op : Op} {args : List Nat} {k : Int × Nat → Prog α} {Q : α → St → Prop} (hn : Has F o op args)
    (hg : ∀ r y, gives ⟨op, args, r, y⟩ = none) (ht : ∀ r y, takes ⟨op, args, r, y⟩ = none) (hti : ∀ r y, ties x ⟨op, args, r, y⟩ = none)
    (h : ∀ r y, Safe x F o (k (r, y)) Q) : Safe x F o (.call op args k) Q := by
  intro hs
  refine ⟨⟨hn, fun r y e he => by rw [ht r y] at he; cases he⟩, fun r y _ => ?_⟩
  rw [effect, ht r y, hg r y, hti r y]
  exact ⟨hs, h r y hs⟩

/-- A call that creates an object or fails. -/
theorem Safe.get {α : Type} {x : Bool} {F o : St} {op : Op} {args : List Nat} {k : Int × Nat → Prog α} {Q : α → St → Prop} (hn : Has F o op args)
    (ht : ∀ r y, takes ⟨op, args, r, y⟩ = none) (hti : ∀ r y, ties x ⟨op, args, r, y⟩ = none)
    (hlib : ∀ r y h, gives ⟨op, args, r, y⟩ = some h → ofLib h.1 = true → (.lib, 0) ∈ o.held ∨ (.lib, 0) ∈ F.held)
    (h0 : ∀ r y, honest (o + F) ⟨op, args, r, y⟩ → gives ⟨op, args, r, y⟩ = none → Safe x F o (k (r, y)) Q)
    (h1 : ∀ r y h, honest (o + F) ⟨op, args, r, y⟩ → gives ⟨op, args, r, y⟩ = some h → (h.1 ≠ .lib → h ∉ o.held ∧ h ∉ F.held ∧ ∀ t ∈ o.refs, t.1 ≠ h ∧ t.2 ≠ h) →
      Safe x F (o.plus h) (k (r, y)) Q) :
    Safe x F o (.call op args k) Q := by
  intro hs
  refine ⟨⟨hn, fun r y e he => by rw [ht r y] at he; cases he⟩, fun r y hh => ?_⟩
  rw [effect, ht r y, hti r y]
  cases hg : gives ⟨op, args, r, y⟩ with
  | none => exact ⟨hs, h0 r y hh hg hs⟩
  | some h =>
    have hf := hh.2.2.2 h hg
    have h2 : (o.plus h + F).Sound := sound_plus hs (fun hl => List.mem_append.2 (hlib r y h hg hl)) hf
    refine ⟨h2, h1 r y h hh hg (fun hk => ⟨fun hm => hf hk (List.mem_append_left _ hm), fun hm => hf hk (List.mem_append_right _ hm), ?_⟩) h2⟩
    intro t ht
    obtain ⟨h4, h5, -⟩ := hs.refs t (List.mem_append_left _ ht)
    exact ⟨fun hh => hf hk (hh ▸ h4), fun hh => hf hk (hh ▸ h5)⟩

/-- A call that leaves a reference. -/
theorem Safe.tie {α : Type} {x : Bool} {F o : St} {op : Op} {args : List Nat} {k : Int × Nat → Prog α} {Q : α → St → Prop} (hn : Has F o op args)
    (hg : ∀ r y, gives ⟨op, args, r, y⟩ = none) (ht : ∀ r y, takes ⟨op, args, r, y⟩ = none)
    (hr : ∀ r y t, ties x ⟨op, args, r, y⟩ = some t → (t.1 ∈ o.held ∨ t.1 ∈ F.held) ∧ (t.2 ∈ o.held ∨ t.2 ∈ F.held) ∧ t.1.1 ≠ .lib ∧ t.2.1 ≠ .lib)
    (h0 : ∀ r y, ties x ⟨op, args, r, y⟩ = none → Safe x F o (k (r, y)) Q)
    (h1 : ∀ r y t, ties x ⟨op, args, r, y⟩ = some t → Safe x F (o.link t) (k (r, y)) Q) : Safe x F o (.call op args k) Q := by
  intro hs
  refine ⟨⟨hn, fun r y e he => by rw [ht r y] at he; cases he⟩, fun r y hh => ?_⟩
  rw [effect, ht r y, hg r y]
  cases hti : ties x ⟨op, args, r, y⟩ with
  | none => exact ⟨hs, h0 r y hti hs⟩
  | some t =>
    have h2 : (o.link t + F).Sound := by
      refine ⟨hs.lib, ?_, hs.once⟩
      intro t' ht'
      rcases List.mem_cons.1 ht' with rfl | ht'
      · obtain ⟨h4, h5, h6⟩ := hr r y t' hti
        exact ⟨List.mem_append.2 h4, List.mem_append.2 h5, h6⟩
      · exact hs.refs t' ht'
    exact ⟨h2, h1 r y t hti h2⟩

/-- A call that destroys an object of its own. -/
theorem Safe.put {α : Type} {x : Bool} {F o : St} {op : Op} {args : List Nat} {k : Int × Nat → Prog α} {Q : α → St → Prop} {h : Handle} (hF : F.Sound)
    (hn : needs op args = some [h]) (hm : h ∈ o.held) (hg : ∀ r y, gives ⟨op, args, r, y⟩ = none) (ht : ∀ r y, takes ⟨op, args, r, y⟩ = some h)
    (hti : ∀ r y, ties x ⟨op, args, r, y⟩ = none) (hno : ∀ t ∈ o.refs, t.2 ≠ h)
    (hl : h = (.lib, 0) → ∀ e ∈ o.held.erase (.lib, 0), ofLib e.1 = false)
    (h1 : ∀ r y, honest (o + F) ⟨op, args, r, y⟩ → Safe x F (o.minus h) (k (r, y)) Q) : Safe x F o (.call op args k) Q := by
  intro hs
  have ha := apart hF hs hm
  have hno' : ∀ t ∈ (o + F).refs, t.2 ≠ h := by
    intro t ht
    rcases List.mem_append.1 ht with ht | ht
    · exact hno t ht
    · exact (ha t ht).2
  have hl' : h = (.lib, 0) → (∃ e ∈ (o + F).held, ofLib e.1 = true) → (.lib, 0) ∈ (o + F).held.erase (.lib, 0) := by
    rintro rfl ⟨e, he, hle⟩
    rw [add_held, List.erase_append_left _ hm]
    refine List.mem_append_right _ (hF.lib ?_)
    rw [add_held] at he
    rcases List.mem_append.1 he with he | he
    · have hne : e ≠ (.lib, 0) := by rintro rfl; cases hle
      have := hl rfl e ((List.mem_erase_of_ne hne).2 he)
      rw [hle] at this; cases this
    · exact ⟨e, he, hle⟩
  have heq : (o + F).minus h = o.minus h + F := by
    show St.mk _ _ = St.mk _ _
    rw [add_held, add_refs, List.erase_append_left _ hm, List.filter_append]
    congr 2
    exact List.filter_eq_self.2 (fun t ht => by simp [(ha t ht).1])
  refine ⟨⟨⟨[h], hn, fun e he => ?_⟩, ?_⟩, fun r y hh => ?_⟩
  · rw [List.mem_singleton.1 he]; exact .inl hm
  · intro r y e he
    rw [ht r y] at he
    cases he
    exact ⟨hm, hno⟩
  · rw [effect, ht r y, hg r y, hti r y]
    have h2 := sound_minus hs hno' hl'
    rw [heq] at h2
    exact ⟨h2, h1 r y hh h2⟩

/-- A program that starts with nothing of its own leaves what is there alone. -/
theorem Wp.frame {α : Type} {x : Bool} {F G : St} {Q : α → St → Prop} (hG : (G + F).Sound) : ∀ (p : Prog α) (o : St), (o + (G + F)).Sound →
    Wp x (G + F) Q p o → Wp x F (fun a S' => ∃ o', S' = o' + G ∧ Q a o') p (o + G)
  | .ret _, _, _, ⟨o', h1, h2⟩ => ⟨o' + G, h1.add (.refl G), o', rfl, h2⟩
  | .cut, _, _, _ => trivial
  | .call op args k, o, hs, ⟨h1, h2⟩ => by
    refine ⟨?_, fun r y hh => ?_⟩
    · obtain ⟨⟨hs', h3, h4⟩, h5⟩ := h1
      refine ⟨⟨hs', h3, fun e he => ?_⟩, fun r y e he => ?_⟩
      · rcases h4 e he with h6 | h6
        · exact .inl (List.mem_append_left _ h6)
        · rcases List.mem_append.1 h6 with h6 | h6
          · exact .inl (List.mem_append_right _ h6)
          · exact .inr h6
      · obtain ⟨h6, h7⟩ := h5 r y e he
        refine ⟨List.mem_append_left _ h6, fun t ht => ?_⟩
        rcases List.mem_append.1 ht with ht | ht
        · exact h7 t ht
        · exact (apart hG hs h6 t (List.mem_append_left _ ht)).2
    · rw [add_assoc] at hh
      obtain ⟨h3, h4⟩ := h2 r y hh
      have h5 : Res.effect x (o + G) ⟨op, args, r, y⟩ = Res.effect x o ⟨op, args, r, y⟩ + G := 
        effect_left h1 (fun e he t ht => (apart hG hs he t (List.mem_append_left _ ht)).1)
      rw [h5, add_assoc]
      exact ⟨h3, Wp.frame hG (k (r, y)) _ h3 h4⟩

theorem Safe.frame {α : Type} {x : Bool} {F G : St} {p : Prog α} {Q : α → St → Prop} (h : (G + F).Sound → Safe x (G + F) none' p Q) :
    Safe x F G p (fun a S' => ∃ o', S' = o' + G ∧ Q a o') :=
  fun hs => Wp.frame hs p none' hs (h hs hs)

theorem plus_minus {o : St} {h : Handle} (hr : ∀ t ∈ o.refs, t.1 ≠ h) : (o.plus h).minus h = o := by
  show St.mk _ _ = _
  rw [St.plus, List.erase_cons_head, List.filter_eq_self.2 (fun t ht => by simp [hr t ht])]

end FreeCoAP.Res
