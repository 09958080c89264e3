import Verif.Server.LemmasBlock
import Verif.Server.LemmasOutcome

/-! # The response generated -/

namespace FreeCoAP.Server

open FreeCoAP.Msg

theorem Next2.built {opMem payMem : Bool} {b : Blk} {L : Large} {req resp : Msg} {num2 : Nat} {uri : Bytes} {x : BRes}
    (h : Next2 opMem payMem b L req resp num2 uri x) (hb : Built resp) : Built x.resp := by
  cases h with
  | bad => exact hb.withCode (by decide) (by decide)
  | fail _ e resp' hb' _ => exact hb' hb
  | more => exact ((hb.addOp _ _).setPayload _).withCode (by decide) (by decide)
  | last _ _ _ _ _ _ _ _ _ _ hd =>
    refine ((hb.addOp _ _).setPayload _).withCode (by decide) ?_
    split
    · decide
    · rcases hd with h | h
      · contradiction
      · exact h

theorem Next1.built {env : Env} {again : Blk → Large → Msg → Out BRes} {b : Blk} {L : Large} {req resp : Msg} {num1 : Nat}
    {more1 : Bool} {uri : Bytes} {x : BRes} (h : Next1 env again b L req resp num1 more1 uri x) (hb : Built resp)
    (ha : AppOK env) (hag : ∀ b L resp x, Built resp → again b L resp = .ok x → Built x.resp) : Built x.resp := by
  cases h with
  | bad => exact hb.withCode (by decide) (by decide)
  | order => exact hb.withCode (by decide) (by decide)
  | large => exact hb.withCode (by decide) (by decide)
  | fail => exact hb
  | more => exact (hb.addOp _ _).withCode (by decide) (by decide)
  | whole _ _ _ _ _ _ _ _ val _ p bytes bytes' _ _ id _ rr hr _ x hx =>
    have hrr : Built rr.resp := by rw [hr]; exact ha.rx _ _ _ _ _ (hb.addOp _ _)
    rcases hx with ⟨e, he, rfl⟩ | ⟨he, hne, rfl⟩ | ⟨he, h2, hbe, hx⟩ | ⟨he, h2, hbe, ⟨hd, rfl⟩ | ⟨hd, rfl⟩⟩
    · exact hrr
    · exact hrr
    · have := hag _ _ _ x hrr hx; exact this
    · exact hrr.withCode (by decide) hd
    · exact hrr

theorem NextStep.built {env : Env} {opMem : Bool} {again : Blk → Large → Msg → Out BRes} {b : Blk} {L : Large}
    {req resp : Msg} {x : BRes} (h : NextStep env opMem again b L req resp x) (hb : Built resp)
    (ha : AppOK env) (hag : ∀ b L resp x, Built resp → again b L resp = .ok x → Built x.resp) : Built x.resp := by
  cases h with
  | badOp => exact hb.withCode (by decide) (by decide)
  | regular => exact hb
  | two _ _ _ _ _ _ hx => exact hx.built hb
  | one _ _ _ _ _ _ hx => exact hx.built hb ha hag

theorem nextBlock_built {env : Env} {b : Blk} {L : Large} {req resp : Msg} {x : BRes}
    (h : nextBlock env b L req resp = .ok x) (hb : Built resp) (ha : AppOK env) : Built x.resp := by
  unfold nextBlock at h
  refine (nextBlockStep_cases h).built hb ha ?_
  intro b L resp x hb h
  exact (nextBlockStep_cases h).built hb ha (fun _ _ _ _ _ h => by cases h)

theorem handleBlockwise_built {env : Env} {b : Blk} {L : Large} {req resp : Msg} {b1 b2 : Nat} {body : Bytes} {bodyLen : Nat}
    {rx : Option Nat} {x : BRes} (h : handleBlockwise env b L req resp b1 b2 body bodyLen rx = .ok x) (hb : Built resp)
    (ha : AppOK env) : Built x.resp := by
  unfold handleBlockwise at h
  simp only at h
  split at h
  · cases h; exact hb
  split at h
  · cases h; exact hb
  split at h
  · cases h; exact hb
  split at h
  · cases h; exact hb
  split at h
  · split at h
    · cases h
    · cases h
    split at h
    · cases h
    · cases h
    split at h
    · cases h
    · cases h
    exact nextBlock_built h hb ha
  split at h
  · split at h
    · cases h; exact hb
    split at h
    · cases h
    · cases h
    exact nextBlock_built h hb ha
  · rw [clearCode_eq (by decide) (by decide)] at h
    cases h
    exact hb.withCode (by decide) (by decide)

theorem badOption_cases {env : Env} {resp : Msg} {n : Nat} {r : Msg × Option Err} (h : badOption env resp n = .ok r) :
    (env.payMem = true ∧ r = (setPayload (withCode resp 4 2) ((ascii s!"Bad option number: {n}").take 127), none)) ∨
    (env.payMem = false ∧ r = (withCode resp 4 2, some .ENOMEM)) := by
  unfold badOption setOut setCode at h
  rw [if_neg (by decide), if_neg (by decide)] at h
  simp only at h
  split at h
  · rename_i hp; cases h; exact Or.inl ⟨hp, rfl⟩
  · rename_i hp; cases h; exact Or.inr ⟨by simpa using hp, rfl⟩

theorem generate_built {env : Env} {t : Trans} {L : Large} {m : Msg} {r : BRes} {o : List Obs} (ha : AppOK env)
    (h : generate env t L m = .ok (r, o)) : Built r.resp := by
  unfold generate at h
  split at h
  · split at h
    · rename_i resp e hb
      cases h
      rcases badOption_cases hb with ⟨-, hh⟩ | ⟨-, hh⟩ <;> cases hh
      · exact (Built.create.withCode (by decide) (by decide)).setPayload _
      · exact Built.create.withCode (by decide) (by decide)
    · cases h
    · cases h
  split at h
  · split at h
    · rename_i r' hr
      cases h
      exact nextBlock_built hr Built.create ha
    · cases h
    · cases h
  split at h
  · rename_i resp e hh
    cases h
    have := ha.handle t m
    rw [hh] at this
    exact this
  · rename_i resp b1 b2 body bodyLen rx hh
    have := ha.handle t m
    rw [hh] at this
    split at h
    · rename_i r' hr
      cases h
      exact handleBlockwise_built hr this ha
    · cases h
    · cases h

theorem Built.final {sepList : List Bytes} {env : Env} {id : Nat} {m resp : Msg} (h : Built resp) (hf : Fields m) :
    Built (final sepList env id m resp) := by
  refine ⟨h.ver, final_type_lt .., h.cls, h.detail, ?_, hf.token, h.sorted⟩
  have := nextMsgId_le id env.idRand
  have := hf.msgId
  simp only [Server.final]; split <;> omega

end FreeCoAP.Server
