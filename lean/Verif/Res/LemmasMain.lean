import Verif.Res.LemmasThreads

/-!
# The main thread of the proxy
-/

namespace FreeCoAP.Res

variable {x : Bool} {F : St}

/-- The priority cache and GnuTLS. -/
def prioLib (p : Nat) : St := ⟨[(.prio, p), (.lib, 0)], []⟩

/-- Objects together with GnuTLS can be kept when others go. -/
theorem sound_lib {o G : St} (hF : F.Sound) (hl : (.lib, 0) ∈ G.held) (hr : G.refs = []) (hs : (o + (G + F)).Sound) : (G + F).Sound := by
  refine ⟨fun _ => List.mem_append_left _ hl, ?_, once_right hs⟩
  intro t ht
  rw [add_refs, hr, List.nil_append] at ht
  obtain ⟨h1, h2, h3⟩ := hF.refs t ht
  exact ⟨List.mem_append_right _ h1, List.mem_append_right _ h2, h3⟩

theorem proxyStop_safe {p : Nat} {t : Tls} (hF : F.Sound) : Safe x F (t.objs + prioLib p) (proxyStop p t) (fun _ o => o = none') := by
  unfold proxyStop
  refine Safe.bind (R := fun _ o' => o' = prioLib p) ?_ ?_
  · exact Safe.part (fun h => tlsServerDestroy_safe h) (sound_lib hF (by simp [prioLib]) rfl)
  · rintro _ o' rfl
    exact tlsDeinit_safe hF

/-- The lock of the statistics, if there are any. -/
def statsObj : Option Nat → St
  | none => none'
  | some k => one (.mutex, k)

theorem connectionInit_safe {st : Bool} (hF : F.Sound) : Safe x F none' (connectionInit st) (fun r o => match r with
    | none => o = none'
    | some k => o = statsObj k ∧ (st = false → k = none)) := by
  unfold connectionInit
  split
  · rename_i hst
    refine (lockCreate_safe hF).bind ?_
    rintro (_ | k) o' ho
    · cases ho; exact Safe.pure rfl
    · cases ho; exact Safe.pure ⟨rfl, fun h => by rw [hst] at h; cases h⟩
  · exact Safe.pure ⟨rfl, fun _ => rfl⟩

/-- The objects of a proxy that runs. -/
def Up.objs (u : Up) : St := u.l.objs + (statsObj u.stats + (u.tls.objs + prioLib u.prio))

/-- What `main` leaves. -/
def StartLeaves (st : Bool) (r : Option Up) (o : St) : Prop :=
  match r with
  | none => o = none' ∨ o = one (.lib, 0) ∨ ∃ k, st = true ∧ o = one (.mutex, k)
  | some u => o = u.objs ∧ (st = false → u.stats = none)

theorem stopFail_safe {st : Bool} {p : Nat} {t : Tls} {k : Option Nat} (hF : F.Sound) (hk : st = false → k = none) :
    Safe x F (statsObj k + (t.objs + prioLib p)) (proxyStop p t >>= fun _ => pure none) (StartLeaves st) := by
  refine Safe.same (St.Same.swap _ _) ?_
  refine Safe.bind (R := fun _ o' => o' = statsObj k) ?_ ?_
  · refine Safe.part (fun h => proxyStop_safe h) (sound_rest hF ?_ ?_)
    · cases k <;> simp [statsObj, none', one, ofLib]
    · cases k <;> rfl
  · rintro _ o' rfl
    refine Safe.pure ?_
    cases k with
    | none => exact .inl rfl
    | some k =>
      refine .inr (.inr ⟨k, ?_, rfl⟩)
      cases st with
      | true => rfl
      | false => cases hk rfl

theorem proxyListen_safe {st : Bool} {p : Nat} {t : Tls} {k : Option Nat} (hF : F.Sound) (hk : st = false → k = none) :
    Safe x F (statsObj k + (t.objs + prioLib p)) (proxyListen p t k) (StartLeaves st) := by
  intro hs
  unfold proxyListen
  refine (Safe.frame (fun h => listenerNew_safe h)).bind ?_ hs
  rintro (_ | l) o' ⟨o', rfl, ho⟩
  · cases ho
    exact stopFail_safe hF hk
  cases ho
  dsimp only
  refine Safe.sys rfl ⟨_, rfl, by simp [add_held, Listener.objs]⟩ (fun r y => ?_)
  dsimp only
  split
  · refine Safe.bind (R := fun _ o' => o' = statsObj k + (t.objs + prioLib p)) ?_ ?_
    · exact Safe.part (fun h => listenerDelete_safe h) (fun _ => hs)
    · rintro _ o' rfl
      exact stopFail_safe hF hk
  · exact Safe.pure ⟨rfl, hk⟩

theorem proxyStart_safe {st auth trust : Bool} (hF : F.Sound) : Safe false F none' (proxyStart st auth trust) (StartLeaves st) := by
  unfold proxyStart
  refine tlsInit_safe.bind ?_
  rintro (_ | p) o' ho
  · exact Safe.pure (ho.imp_right .inl)
  have ho : o' = prioLib p := ho
  subst ho
  dsimp only
  refine (Safe.frame (fun h => tlsServerCreate_safe h (by simp [add_held, prioLib]))).bind ?_
  rintro (_ | t) o' ⟨o', rfl, ho⟩
  · cases ho
    refine Safe.bind (tlsDeinit_safe hF) ?_
    rintro _ o' rfl
    exact Safe.pure (.inl rfl)
  cases ho
  dsimp only
  refine (Safe.frame (fun h => connectionInit_safe h)).bind ?_
  rintro (_ | k) o' ⟨o', rfl, ho⟩
  · cases ho
    exact stopFail_safe (k := none) hF (fun _ => rfl)
  · obtain ⟨rfl, hk⟩ := ho
    exact proxyListen_safe hF hk

/-- The runs of a program are runs of the thread of the listener. -/
theorem lis_runs {f : Fixed} {p : Prog Turn} {a : Turn} {l : List Ev} {cs : List (Prog Unit)} {t : Threads} {l0 : List Ev}
    (h0 : f.Runs t l0 ⟨.turn p, cs⟩) (h : Runs p l (some a)) : f.Runs t (l0 ++ l) ⟨.turn (.ret a), cs⟩ := by
  generalize hr : some a = r at h
  induction h generalizing l0 with
  | ret a' => cases hr; rw [List.append_nil]; exact h0
  | stop => cases hr
  | call r y h ih =>
    have := ih (h0.call (.lis r y)) hr
    rwa [List.append_assoc] at this

end FreeCoAP.Res
