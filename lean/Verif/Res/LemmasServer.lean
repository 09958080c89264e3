import Verif.Res.LemmasLib

/-!
# The server keeps the rules
-/

namespace FreeCoAP.Res

variable {x : Bool} {F : St}

/-- The objects of GnuTLS of a server. -/
def SDtls.objs (x : Bool) (d : SDtls) : St :=
  ⟨[(.prio, d.prio), (.dh, d.dh), (.cred, d.cred), (.lib, 0)], if x then [((.cred, d.cred), (.dh, d.dh))] else []⟩

theorem dhCred_safe {h c : Nat} (hF : F.Sound) :
    Safe x F ⟨[(.dh, h), (.cred, c), (.lib, 0)], []⟩ (run_ .dhDeinit [h] >>= fun _ => freeCred c) (fun _ o => o = none') :=
  Safe.free (o' := credLib c) rfl hF (by simp) (by simp) (by simp [St.minus, credLib]) (freeCred_safe hF)

theorem serverKey_safe {c : Nat} (hF : F.Sound) : Safe false F (credLib c) (serverKey c) (Leaves (SDtls.objs false)) := by
  unfold serverKey
  refine Safe.sys rfl ⟨_, rfl, by simp [credLib]⟩ (fun r y => ?_)
  split
  · exact fail (freeCred_safe hF)
  refine Safe.make rfl ⟨_, rfl, by simp [credLib]⟩ (fun r y hr _ => ?_) (fun h _ _ _ => ?_)
  · rw [if_pos hr]; exact fail (freeCred_safe hF)
  rw [if_neg (by simp)]
  refine Safe.sys rfl (by has_) (fun r y => ?_)
  split
  · exact fail2 (dhCred_safe hF)
  refine Safe.setDh (by simp [St.plus, credLib]) (by simp [St.plus, credLib]) ?_
  rw [if_neg (by simp)]
  refine Safe.make rfl ⟨_, rfl, by simp [credLib, St.plus]⟩ (fun r y hr _ => ?_) (fun p _ _ _ => ?_)
  · rw [if_pos hr]; exact fail2 (dhCred_safe hF)
  rw [if_neg (by simp)]
  exact Safe.pure rfl

theorem serverDtlsCreate_safe {trust crl : Bool} (hF : F.Sound) :
    Safe false F none' (serverDtlsCreate trust crl) (Leaves (SDtls.objs false)) := by
  unfold serverDtlsCreate
  refine Safe.globalInit (fun r y hr => ?_) (fun y => ?_)
  · rw [if_pos hr]; exact Safe.pure rfl
  rw [if_neg (by simp)]
  refine Safe.make rfl ⟨_, rfl, by simp [St.plus]⟩ (fun r y hr _ => ?_) (fun c _ _ _ => ?_)
  · rw [if_pos hr]; exact globalDeinit_safe hF (Safe.pure rfl)
  rw [if_neg (by simp)]
  show Safe false F (credLib c) _ _
  refine (file_safe (.inl rfl) (by simp [credLib])).bind ?_
  rintro b o' rfl
  split
  · exact fail (freeCred_safe hF)
  refine (file_safe (.inr rfl) (by simp [credLib])).bind ?_
  rintro b o' rfl
  split
  · exact fail (freeCred_safe hF)
  exact serverKey_safe hF

theorem serverDtlsDestroy_safe {d : SDtls} (hF : F.Sound) : Safe x F (d.objs x) (serverDtlsDestroy d) (fun _ o => o = none') := by
  unfold serverDtlsDestroy
  refine Safe.free (o' := ⟨[(.dh, d.dh), (.cred, d.cred), (.lib, 0)], (d.objs x).refs⟩) rfl hF (by simp [SDtls.objs]) ?_ ?_ ?_
  · cases x <;> simp [SDtls.objs]
  · cases x <;> simp [St.minus, SDtls.objs]
  refine Safe.free (o' := ⟨[(.dh, d.dh), (.lib, 0)], []⟩) rfl hF (by simp) ?_ ?_ ?_
  · cases x <;> simp [SDtls.objs]
  · cases x <;> simp [St.minus, SDtls.objs]
  refine Safe.free (o' := one (.lib, 0)) rfl hF (by simp) (by simp) (by simp [St.minus, one]) ?_
  exact Safe.last (globalDeinit_safe hF (Safe.pure rfl))

theorem serverBind_safe (hF : F.Sound) : ∀ addrs, Safe x F none' (serverBind addrs)
    (fun r o => match r with | .some sd => o = fdObj sd | _ => o = none')
  | [] => Safe.pure rfl
  | false :: rest => serverBind_safe hF rest
  | true :: rest => by
    rw [serverBind]
    refine Safe.fd (by simp) (by has_) (fun y => ?_) (fun n y _ _ _ => ?_)
    · rw [if_pos (by simp)]; exact serverBind_safe hF rest
    rw [if_neg (by simp)]
    dsimp only
    rw [Int.toNat_natCast]
    refine Safe.sys rfl (by has_) (fun r y => ?_)
    split
    · exact one_free rfl hF (Safe.pure rfl)
    refine Safe.sys rfl (by has_) (fun r y => ?_)
    split
    · exact one_free rfl hF (serverBind_safe hF rest)
    · exact Safe.pure rfl

/-- The objects of a server, without the transactions. -/
def Server.objs (x : Bool) (v : Server) : St := (match v.dtls with | none => none' | some d => d.objs x) + fdObj v.sd

theorem serverFlags_safe {dtls : Bool} {sd : Nat} {trust crl : Bool} (hF : F.Sound) :
    Safe false F (fdObj sd) (serverFlags dtls sd trust crl) (Leaves (Server.objs false)) := by
  unfold serverFlags
  refine Safe.sys rfl ⟨_, rfl, by simp [fdObj, one]⟩ (fun r y => ?_)
  split
  · exact one_free rfl hF (Safe.pure rfl)
  refine Safe.sys rfl ⟨_, rfl, by simp [fdObj, one]⟩ (fun r y => ?_)
  split
  · exact one_free rfl hF (Safe.pure rfl)
  split
  · refine (Safe.frame (fun hs => serverDtlsCreate_safe (trust := trust) (crl := crl) hs)).bind ?_
    rintro (_ | d) o' ⟨o', rfl, ho⟩
    · cases ho
      exact one_free rfl hF (Safe.pure rfl)
    · cases ho
      exact Safe.pure rfl
  · exact Safe.pure rfl

theorem serverCreate_safe {dtls : Bool} {addrs : List Bool} {trust crl : Bool} (hF : F.Sound) :
    Safe false F none' (serverCreate dtls addrs trust crl) (Leaves (Server.objs false)) := by
  unfold serverCreate
  refine Safe.make rfl (by has_) (fun r y _ hr => ?_) (fun a _ _ _ => ?_)
  · rw [if_pos (hr rfl)]; exact Safe.pure rfl
  rw [if_neg (by simp)]
  show Safe false F (one (.addrs, a)) _ _
  refine (Safe.frame (fun hs => serverBind_safe (x := false) hs addrs)).bind ?_
  rintro (_ | _ | sd) o' ⟨o', rfl, ho⟩
  · cases ho
    exact one_free rfl hF (Safe.pure rfl)
  · cases ho
    exact one_free rfl hF (Safe.pure rfl)
  · cases ho
    refine Safe.free (o' := fdObj sd) rfl hF (by simp [add_held, one]) (by simp [add_refs, fdObj, one]) ?_ ?_
    · simp [St.minus, add_held, add_refs, fdObj, one]
    exact serverFlags_safe hF

/-! ## Transactions -/

/-- The session of a transaction. -/
def sessObjs (d : SDtls) (s : Nat) : St := ⟨[(.session, s)], [((.session, s), (.prio, d.prio)), ((.session, s), (.cred, d.cred))]⟩

theorem sess_free {d : SDtls} {s : Nat} {refs : List (Handle × Handle)}
    (hr : ∀ t ∈ refs, t = ((.session, s), (.prio, d.prio)) ∨ t = ((.session, s), (.cred, d.cred))) (hF : F.Sound) :
    Safe x F ⟨[(.session, s)], refs⟩ (run_ .deinit [s]) (fun _ o => o = none') := by
  refine Safe.last (Safe.free (o' := none') rfl hF (by simp) ?_ ?_ (Safe.pure rfl))
  · intro t ht
    rcases hr t ht with rfl | rfl <;> simp
  · have h1 : refs.filter (fun t => decide (t.1 ≠ (.session, s))) = [] := by
      refine List.filter_eq_nil_iff.2 (fun t ht => ?_)
      rcases hr t ht with rfl | rfl <;> simp
    rw [St.minus, h1]
    simp [none']

theorem transDtlsCreate_safe {auth : Bool} {sd : Nat} {d : SDtls} (hF : F.Sound) (hsd : (.fd, sd) ∈ F.held) (hl : (.lib, 0) ∈ F.held)
    (hc : (.cred, d.cred) ∈ F.held) (hp : (.prio, d.prio) ∈ F.held) :
    Safe x F none' (transDtlsCreate auth sd d) (Leaves (sessObjs d)) := by
  unfold transDtlsCreate
  refine Safe.make rfl ⟨_, rfl, by simp [hl]⟩ (fun r y hr _ => ?_) (fun s _ _ _ => ?_)
  · rw [if_pos hr]; exact Safe.pure rfl
  rw [if_neg (by simp)]
  have hf : ∀ refs : List (Handle × Handle), (∀ t ∈ refs, t = ((.session, s), (.prio, d.prio)) ∨ t = ((.session, s), (.cred, d.cred))) →
      Safe x F ⟨[(.session, s)], refs⟩ (run_ .deinit [s] >>= fun _ => pure none) (Leaves (sessObjs d)) :=
    fun refs hr => fail (sess_free hr hF)
  refine Safe.set (.inl ⟨rfl, rfl⟩) (by simp [St.plus]) (.inr hc) (fun r y hr => ?_) (fun y => ?_)
  · rw [if_pos hr]; exact hf [] (by simp)
  rw [if_neg (by simp)]
  refine Safe.set (.inr ⟨rfl, rfl⟩) (by simp [St.plus, St.link]) (.inr hp) (fun r y hr => ?_) (fun y => ?_)
  · rw [if_pos hr]; exact hf _ (by simp [none', St.plus])
  rw [if_neg (by simp)]
  show Safe x F (sessObjs d s) _ _
  refine (handshake_safe (by simp [sessObjs]) (.inr hsd)).bind ?_
  rintro b o' rfl
  split
  · exact hf _ (by simp)
  split
  · refine (Safe.frame (fun hs => verifyPeer_safe (x := x) (s := s) (name := none) hs ?_ ?_)).bind ?_
    · simp [add_held, hl]
    · simp [add_held, sessObjs]
    rintro b o' ⟨o', rfl, rfl⟩
    rw [none_add]
    split
    · exact hf _ (by simp)
    exact Safe.pure rfl
  · exact Safe.pure rfl

/-- The objects of a transaction. -/
def Trans.objs (v : Server) (t : Trans) : St :=
  (match v.dtls, t.session with | some d, some s => sessObjs d s | _, _ => none') + fdObj t.timer

/-- A transaction has a session if and only if the server uses DTLS. -/
def Trans.OK (v : Server) (t : Trans) : Prop := t.session.isSome = v.dtls.isSome

/-- The objects of the server are there. -/
structure Serves (F : St) (v : Server) : Prop where
  sd : (.fd, v.sd) ∈ F.held
  dtls : ∀ d, v.dtls = some d → (.lib, 0) ∈ F.held ∧ (.cred, d.cred) ∈ F.held ∧ (.prio, d.prio) ∈ F.held

theorem transCreate_safe {auth : Bool} {v : Server} (hF : F.Sound) (hv : Serves F v) :
    Safe x F none' (transCreate auth v) (fun r o => Leaves (Trans.objs v) r o ∧ ∀ t, r = some t → t.OK v) := by
  have h0 : ∀ n : Nat, Safe x F (fdObj n) (run_ .close [n] >>= fun _ => pure none)
      (fun r o => Leaves (Trans.objs v) r o ∧ ∀ t, r = some t → t.OK v) :=
    fun n => one_free rfl hF (Safe.pure ⟨rfl, fun t h => by cases h⟩)
  unfold transCreate
  refine Safe.fd (by simp) (by has_) (fun y => ?_) (fun n y _ _ _ => ?_)
  · rw [if_pos (by simp)]; exact Safe.pure ⟨rfl, fun t h => by cases h⟩
  rw [if_neg (by simp)]
  dsimp only
  rw [Int.toNat_natCast]
  refine Safe.sys rfl (by has_) (fun r y => ?_)
  split
  · exact h0 n
  cases hd : v.dtls with
  | none =>
    refine Safe.pure ⟨?_, ?_⟩
    · show _ = Trans.objs v ⟨n, none⟩
      rw [Trans.objs, hd]; rfl
    · intro t ht; cases ht; rw [Trans.OK, hd]; rfl
  | some d =>
    obtain ⟨h1, h2, h3⟩ := hv.dtls d hd
    refine (Safe.frame (fun hs => transDtlsCreate_safe (x := x) (auth := auth) (sd := v.sd) (d := d) hs ?_ ?_ ?_ ?_)).bind ?_
    · simp [add_held, hv.sd]
    · simp [add_held, h1]
    · simp [add_held, h2]
    · simp [add_held, h3]
    rintro (_ | s) o' ⟨o', rfl, ho⟩
    · cases ho; exact h0 n
    · cases ho
      refine Safe.pure ⟨?_, ?_⟩
      · show _ = Trans.objs v ⟨n, some s⟩
        rw [Trans.objs, hd]; rfl
      · intro t ht; cases ht; rw [Trans.OK, hd]; rfl

theorem transDestroy_safe {v : Server} {t : Trans} (hF : F.Sound) (hv : Serves F v) (ht : t.OK v) :
    Safe x F (t.objs v) (transDestroy v.sd t) (fun _ o => o = none') := by
  unfold transDestroy
  obtain ⟨n, s⟩ := t
  cases hd : v.dtls with
  | none =>
    cases s with
    | some s => rw [Trans.OK, hd] at ht; cases ht
    | none =>
      have : Trans.objs v ⟨n, none⟩ = fdObj n := by rw [Trans.objs, hd]; rfl
      rw [this]
      exact Safe.last (one_free rfl hF (Safe.pure rfl))
  | some d =>
    cases s with
    | none => rw [Trans.OK, hd] at ht; cases ht
    | some s =>
      have : Trans.objs v ⟨n, some s⟩ = ⟨[(.session, s), (.fd, n)], (sessObjs d s).refs⟩ := by rw [Trans.objs, hd]; rfl
      rw [this]
      dsimp only
      rw [bind_assoc]
      refine Safe.run rfl ⟨_, rfl, by simp [hv.sd]⟩ ?_
      refine Safe.free (o' := fdObj n) rfl hF (by simp) (by simp [sessObjs]) (by simp [St.minus, sessObjs, fdObj, one]) ?_
      exact Safe.last (one_free rfl hF (Safe.pure rfl))

/-- The objects of the transactions. -/
def transsObjs (v : Server) : List (Option Trans) → St
  | [] => none'
  | none :: ts => transsObjs v ts
  | some t :: ts => t.objs v + transsObjs v ts

/-- The transactions are those of the server. -/
def TransOK (v : Server) (ts : List (Option Trans)) : Prop := ∀ t, some t ∈ ts → t.OK v

/-- The objects of the server and the transactions that are left are a sound collection. -/
theorem sound_left {v : Server} {ts : List (Option Trans)} {o : St} (hF : F.Sound) (hts : TransOK v ts)
    (hs : (o + (transsObjs v ts + v.objs false + F)).Sound) : (transsObjs v ts + v.objs false + F).Sound := by
  have hmem : ∀ d, v.dtls = some d → (.lib, 0) ∈ (v.objs false).held ∧ (.cred, d.cred) ∈ (v.objs false).held ∧ (.prio, d.prio) ∈ (v.objs false).held := by
    intro d hd
    rw [Server.objs, hd]
    simp [add_held, SDtls.objs]
  have hrv : (v.objs false).refs = [] := by
    rw [Server.objs]
    cases v.dtls <;> rfl
  have hlv : v.dtls = none → ∀ h ∈ (v.objs false).held, ofLib h.1 = false := by
    intro hd h hh
    rw [Server.objs, hd] at hh
    rw [List.mem_singleton.1 hh]
    rfl
  have hlt : v.dtls = none → ∀ h ∈ (transsObjs v ts).held, ofLib h.1 = false := by
    intro hd
    clear hs hts
    induction ts with
    | nil => intro h hh; cases hh
    | cons t ts ih =>
      cases t with
      | none => exact ih
      | some t =>
        intro h hh
        rcases List.mem_append.1 hh with hh | hh
        · rw [Trans.objs, hd] at hh
          rw [List.mem_singleton.1 hh]
          rfl
        · exact ih h hh
  have hrt : ∀ t ∈ (transsObjs v ts).refs, t.1 ∈ (transsObjs v ts).held ∧ t.2 ∈ (v.objs false).held ∧ t.1.1 ≠ .lib ∧ t.2.1 ≠ .lib := by
    clear hs hlt
    induction ts with
    | nil => intro t ht; cases ht
    | cons t ts ih =>
      have ih := ih (fun t ht => hts t (List.mem_cons_of_mem _ ht))
      cases t with
      | none => exact ih
      | some t =>
        intro r hr
        rcases List.mem_append.1 hr with hr | hr
        · have hok := hts t (List.mem_cons_self ..)
          obtain ⟨n, s⟩ := t
          cases hd : v.dtls with
          | none => rw [Trans.objs, hd] at hr; cases hr
          | some d =>
            cases s with
            | none => rw [Trans.objs, hd] at hr; cases hr
            | some s =>
              rw [Trans.objs, hd] at hr
              obtain ⟨h1, h2, h3⟩ := hmem d hd
              have h4 : (.session, s) ∈ (transsObjs v (some ⟨n, some s⟩ :: ts)).held := by
                rw [transsObjs, Trans.objs, hd]
                simp [add_held, sessObjs]
              simp only [add_refs, sessObjs, fdObj, one, List.append_nil, List.mem_cons, List.not_mem_nil, or_false] at hr
              rcases hr with rfl | rfl
              · exact ⟨h4, h3, by simp, by simp⟩
              · exact ⟨h4, h2, by simp, by simp⟩
        · obtain ⟨h1, h2⟩ := ih r hr
          exact ⟨List.mem_append_right _ h1, h2⟩
  refine ⟨?_, ?_, ?_⟩
  · rintro ⟨h, hh, hl⟩
    cases hd : v.dtls with
    | some d =>
      rw [add_held, add_held]
      exact List.mem_append_left _ (List.mem_append_right _ (hmem d hd).1)
    | none =>
      rw [add_held, add_held] at hh
      rcases List.mem_append.1 hh with hh | hh
      · rcases List.mem_append.1 hh with hh | hh
        · rw [hlt hd h hh] at hl; cases hl
        · rw [hlv hd h hh] at hl; cases hl
      · exact List.mem_append_right _ (hF.lib ⟨h, hh, hl⟩)
  · intro t ht
    rw [add_refs, add_refs, hrv, List.append_nil] at ht
    rw [add_held, add_held]
    rcases List.mem_append.1 ht with ht | ht
    · obtain ⟨h1, h2, h3⟩ := hrt t ht
      exact ⟨List.mem_append_left _ (List.mem_append_left _ h1), List.mem_append_left _ (List.mem_append_right _ h2), h3⟩
    · obtain ⟨h1, h2, h3⟩ := hF.refs t ht
      exact ⟨List.mem_append_right _ h1, List.mem_append_right _ h2, h3⟩
  · have h1 := hs.once
    rw [add_held, List.filter_append, List.nodup_append] at h1
    exact h1.2.1

theorem serves_objs {v : Server} {G : St} : Serves (G + v.objs false + F) v := by
  refine ⟨?_, ?_⟩
  · rw [add_held, add_held, Server.objs, add_held]
    simp [fdObj, one]
  · intro d hd
    rw [add_held, add_held, Server.objs, hd]
    simp [add_held, SDtls.objs]

/-- What is in one place, and the rest. -/
theorem transsObjs_set {v : Server} : ∀ (ts : List (Option Trans)) (i : Nat) (t : Trans), ts[i]? = some (some t) →
    (transsObjs v ts).Same (t.objs v + transsObjs v (ts.set i none))
  | [], i, t, h => by cases h
  | u :: ts, 0, t, h => by cases Option.some.inj h; exact St.Same.refl _
  | u :: ts, i + 1, t, h => by
    have ih := transsObjs_set (v := v) ts i t h
    cases u with
    | none => exact ih
    | some u =>
      show (u.objs v + transsObjs v ts).Same (t.objs v + (u.objs v + transsObjs v (ts.set i none)))
      refine ((St.Same.refl _).add ih).trans ?_
      rw [← add_assoc, ← add_assoc]
      exact (St.Same.swap _ _).add (St.Same.refl _)

/-- Filling a place that is empty. -/
theorem transsObjs_fill {v : Server} : ∀ (ts : List (Option Trans)) (i : Nat) (t : Trans), ts[i]? = some none →
    (t.objs v + transsObjs v ts).Same (transsObjs v (ts.set i (some t)))
  | [], i, t, h => by cases h
  | u :: ts, 0, t, h => by cases Option.some.inj h; exact St.Same.refl _
  | u :: ts, i + 1, t, h => by
    have ih := transsObjs_fill (v := v) ts i t h
    cases u with
    | none => exact ih
    | some u =>
      show (t.objs v + (u.objs v + transsObjs v ts)).Same (u.objs v + transsObjs v (ts.set i (some t)))
      refine St.Same.trans ?_ ((St.Same.refl _).add ih)
      rw [← add_assoc, ← add_assoc]
      exact (St.Same.swap _ _).add (St.Same.refl _)

/-- What a sequence of actions leaves. -/
def TransLeft (v : Server) (ts : List (Option Trans)) (o : St) : Prop := o.Same (transsObjs v ts + v.objs false) ∧ TransOK v ts

theorem transOK_set {v : Server} {ts : List (Option Trans)} (h : TransOK v ts) {i : Nat} {u : Option Trans} (hu : ∀ t, u = some t → t.OK v) :
    TransOK v (ts.set i u) := by
  intro t ht
  rcases List.mem_or_eq_of_mem_set ht with h1 | h1
  · exact h t h1
  · exact hu t h1.symm

theorem leave_safe {v : Server} {ts : List (Option Trans)} {i : Nat} {o : St} (hF : F.Sound) (hts : TransLeft v ts o) :
    Safe false F o (leave v.sd ts i) (fun ts' o' => TransLeft v ts' o' ∧ ts'.length = ts.length ∧ ∀ t, ts'[i]? ≠ some (some t)) := by
  unfold leave
  split
  · rename_i t ht
    obtain ⟨hi, hti⟩ := List.getElem?_eq_some_iff.1 ht
    refine Safe.same (o' := t.objs v + (transsObjs v (ts.set i none) + v.objs false)) ?_ ?_
    · refine hts.1.trans ?_
      rw [← add_assoc]
      exact (transsObjs_set ts i t ht).add (St.Same.refl _)
    · have hok : TransOK v (ts.set i none) := transOK_set hts.2 (fun t h => by cases h)
      refine Safe.bind (R := fun _ o' => o' = transsObjs v (ts.set i none) + v.objs false) ?_ ?_
      · exact Safe.part (fun hs => transDestroy_safe hs serves_objs (hts.2 t (hti ▸ List.getElem_mem hi))) (sound_left hF hok)
      · rintro _ o' rfl
        refine Safe.pure ⟨⟨St.Same.refl _, hok⟩, List.length_set, fun u hu => ?_⟩
        rw [List.getElem?_set_self (by simpa using hi)] at hu
        cases hu
  · rename_i hne
    exact Safe.pure ⟨hts, rfl, fun t ht => hne t ht⟩

theorem act_safe {auth : Bool} {v : Server} {ts : List (Option Trans)} {a : Act} {o : St} (hF : F.Sound) (hts : TransLeft v ts o) :
    Safe false F o (act auth v ts a) (fun ts' o' => TransLeft v ts' o' ∧ ts'.length = ts.length) := by
  cases a with
  | leave i => exact (leave_safe hF hts).mono (fun _ _ h => ⟨h.1, h.2.1⟩)
  | enter i =>
    rw [act]
    split
    case isFalse => exact Safe.pure ⟨hts, rfl⟩
    rename_i hi
    refine (leave_safe hF hts).bind ?_
    rintro ts' o' ⟨h1, h2, h3⟩
    rw [← h2] at hi
    have h6 : ts'[i]? = some none := by
      rw [List.getElem?_eq_getElem hi]
      cases hh : ts'[i] with
      | none => rfl
      | some t => exact absurd (by rw [List.getElem?_eq_getElem hi, hh]) (h3 t)
    refine Safe.same h1.1 ?_
    refine (Safe.frame (fun hs => transCreate_safe (x := false) (auth := auth) hs serves_objs)).bind ?_
    rintro r o'' ⟨o'', rfl, h4, h5⟩
    refine Safe.pure ⟨⟨?_, transOK_set h1.2 h5⟩, by rw [List.length_set, h2]⟩
    cases r with
    | none =>
      cases h4
      have h7 : ts'.set i none = ts' := by
        have := (List.getElem?_eq_some_iff.1 h6).2
        rw [← this]; exact List.set_getElem_self hi
      rw [h7]; exact St.Same.refl _
    | some t =>
      cases h4
      rw [← add_assoc]
      exact (transsObjs_fill ts' i t h6).add (St.Same.refl _)

theorem acts_safe {auth : Bool} {v : Server} (hF : F.Sound) : ∀ (as : List Act) (ts : List (Option Trans)) (o : St), TransLeft v ts o →
    Safe false F o (acts auth v ts as) (TransLeft v)
  | [], ts, o, h => Safe.pure h
  | a :: as, ts, o, h => by
    rw [acts]
    refine (act_safe hF h).bind ?_
    rintro ts' o' ⟨h1, h2⟩
    exact acts_safe hF as ts' o' h1

theorem transsDestroy_safe {v : Server} (hF : F.Sound) : ∀ ts : List (Option Trans), TransOK v ts →
    Safe false F (transsObjs v ts + v.objs false) (transsDestroy v.sd ts) (fun _ o => o = v.objs false)
  | [], _ => Safe.pure rfl
  | none :: ts, h => transsDestroy_safe hF ts (fun t ht => h t (List.mem_cons_of_mem _ ht))
  | some t :: ts, h => by
    have hok : TransOK v ts := fun t ht => h t (List.mem_cons_of_mem _ ht)
    rw [transsDestroy, transsObjs, add_assoc]
    refine Safe.bind (R := fun _ o' => o' = transsObjs v ts + v.objs false) ?_ ?_
    · exact Safe.part (fun hs => transDestroy_safe hs serves_objs (h t (List.mem_cons_self ..))) (sound_left hF hok)
    · rintro _ o' rfl
      exact transsDestroy_safe hF ts hok

theorem serverDestroy_safe {v : Server} {ts : List (Option Trans)} {o : St} (hF : F.Sound) (h : TransLeft v ts o) :
    Safe false F o (serverDestroy v ts) (fun _ o => o = none') := by
  unfold serverDestroy
  refine Safe.same h.1 ((transsDestroy_safe hF ts h.2).bind ?_)
  rintro _ o' rfl
  refine Safe.bind (R := fun _ o' => o' = fdObj v.sd) ?_ ?_
  · rw [Server.objs]
    cases v.dtls with
    | none => exact Safe.pure rfl
    | some d => exact Safe.part (fun hs => serverDtlsDestroy_safe hs) (sound_rest hF (by simp [fdObj, one, ofLib]) rfl)
  · rintro _ o' rfl
    exact Safe.last (one_free rfl hF (Safe.pure rfl))

theorem transsObjs_replicate (v : Server) (n : Nat) : transsObjs v (List.replicate n none) = none' := by
  induction n with
  | zero => rfl
  | succ n ih => exact ih

theorem serverLife_safe {dtls auth : Bool} {addrs : List Bool} {trust crl : Bool} {n : Nat} {as : List Act} (hF : F.Sound) :
    Safe false F none' (serverLife dtls auth addrs trust crl n as) (fun _ o => o = none') := by
  unfold serverLife
  refine (serverCreate_safe hF).bind ?_
  rintro (_ | v) o' ho
  · cases ho; exact Safe.pure rfl
  · cases ho
    refine (acts_safe hF as (List.replicate n none) _ ⟨?_, ?_⟩).bind ?_
    · rw [transsObjs_replicate]; exact St.Same.refl _
    · intro t ht
      exact absurd (List.mem_replicate.1 ht).2 (by simp)
    · intro ts o' h
      refine (serverDestroy_safe hF h).bind ?_
      rintro _ o' rfl
      exact Safe.pure rfl

end FreeCoAP.Res
