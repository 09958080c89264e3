import Verif.Param.Spec
import Verif.Config.Props

/-! # Lemmas on the parameters of the proxy -/

namespace FreeCoAP.Param

open FreeCoAP.Config (Setting lookup Reads get parse Unfinished)

theorem load_ok {max : Nat} {mem : Nat → Bool} {f : File} {text : Bytes} (h : load max mem f = .ok (.ok text)) : Contains f text := by
  unfold load at h
  split at h
  · cases h
  · rename_i ho
    split at h
    · cases h
    · rename_i n hn
      split at h
      · cases h
      unfold loadInto at h
      split at h
      · cases h
      split at h
      · cases h
      · rename_i hl
        rw [if_pos (Nat.lt_succ_self n)] at h
        cases h
        have hl : (f.data.take n).length = n := Classical.byContradiction hl
        refine ⟨by simpa using ho, by rw [hl]; exact hn, by rw [hl]⟩

theorem reads_unique {s : Bytes} {as bs : List Setting} (h : Reads s as) (h' : Reads s bs) : as = bs := by
  obtain ⟨_, _, k1, k2⟩ := h
  obtain ⟨_, _, l1, l2⟩ := h'
  obtain ⟨as3, rfl, l3⟩ := k1.det l1 (Config.halted_eof l2)
  obtain ⟨rfl, -, -⟩ := l3.of_halted (Config.halted_eof k2)
  rw [List.append_nil]

theorem keyVal_some {mem : Nat → Bool} {st : Config.Store} {sec key dflt v : Bytes} (h : keyVal mem st sec key dflt = some v) :
    v = (get st sec key).getD dflt := by
  unfold keyVal at h
  split at h
  · cases h; cases get st sec key <;> rfl
  · cases h

theorem logLevel_iff {st : Config.Store} {l : Int} :
    logLevel st = some l ↔ ∃ n : Nat, l = n ∧ levels[n]? = some ((get st [] (str "log_level")).getD (str "info")) := by
  unfold logLevel
  have hm : pick (get st [] (str "log_level")) (str "info") = (get st [] (str "log_level")).getD (str "info") := by
    cases get st [] (str "log_level") <;> rfl
  rw [hm]
  generalize (get st [] (str "log_level")).getD (str "info") = v
  have h01 : str "warning" ≠ str "error" := by decide
  have h2 : str "notice" ≠ str "error" ∧ str "notice" ≠ str "warning" := by decide
  have h3 : str "info" ≠ str "error" ∧ str "info" ≠ str "warning" ∧ str "info" ≠ str "notice" := by decide
  have h4 : str "debug" ≠ str "error" ∧ str "debug" ≠ str "warning" ∧ str "debug" ≠ str "notice" ∧ str "debug" ≠ str "info" := by decide
  constructor
  · intro h
    split at h
    · rename_i e; cases h; exact ⟨0, rfl, by rw [e]; rfl⟩
    split at h
    · rename_i e; cases h; exact ⟨1, rfl, by rw [e]; rfl⟩
    split at h
    · rename_i e; cases h; exact ⟨2, rfl, by rw [e]; rfl⟩
    split at h
    · rename_i e; cases h; exact ⟨3, rfl, by rw [e]; rfl⟩
    split at h
    · rename_i e; cases h; exact ⟨4, rfl, by rw [e]; rfl⟩
    · cases h
  · rintro ⟨n, rfl, hn⟩
    match n, hn with
    | 0, hn => cases hn; rw [if_pos rfl]; rfl
    | 1, hn => cases hn; rw [if_neg h01, if_pos rfl]; rfl
    | 2, hn => cases hn; rw [if_neg h2.1, if_neg h2.2, if_pos rfl]; rfl
    | 3, hn => cases hn; rw [if_neg h3.1, if_neg h3.2.1, if_neg h3.2.2, if_pos rfl]; rfl
    | 4, hn => cases hn; rw [if_neg h4.1, if_neg h4.2.1, if_neg h4.2.2.1, if_neg h4.2.2.2, if_pos rfl]; rfl

theorem fill_ok {mem : Nat → Bool} {st : Config.Store} {as : List Setting} (hst : ∀ sec n, get st sec n = lookup as sec n)
    (h : (fill mem st).2 = true) : Follows as (fill mem st).1 := by
  unfold fill at h ⊢
  split at h
  · cases h
  rename_i port h1
  split at h
  · cases h
  rename_i level h2
  split at h
  · cases h
  rename_i sk h3
  split at h
  · cases h
  rename_i sc h4
  split at h
  · cases h
  rename_i tr h5
  split at h
  · cases h
  rename_i ck h6
  split at h
  · cases h
  rename_i cc h7
  split at h
  · cases h
  rename_i ct h8
  have hv : ∀ {sec key dflt : String} {v : Bytes}, keyVal mem st (str sec) (str key) (str dflt) = some v → some v = some (value as sec key dflt) := by
    intro sec key dflt v hk
    rw [keyVal_some hk, hst]
    rfl
  obtain ⟨n, e1, e2⟩ := logLevel_iff.1 h2
  rw [hst] at e2
  exact ⟨hv (sec := "") h1, ⟨n, e1, e2⟩, hv h3, hv h4, hv h5, hv h6, hv h7, hv h8⟩

theorem setLevel_eq (l : Int) : setLevel l = if 0 ≤ l ∧ l ≤ 4 then l else 0 := by
  unfold setLevel WARN NOTICE INFO DEBUG ERROR
  repeat' split
  all_goals omega

/-- The level in force, from a level on. -/
def cur : Int → List LogOp → Int
  | l, [] => l
  | _, .set l :: ops => cur (setLevel l) ops
  | l, .log _ _ :: ops => cur l ops

/-- The levels that are set. -/
def setsOf (ops : List LogOp) : List Int := ops.filterMap (fun | .set l => some l | .log _ _ => none)

theorem cur_eq : ∀ (ops : List LogOp) (l : Int), cur l ops = ((setsOf ops).getLast?.map setLevel).getD l
  | [], _ => rfl
  | .set l' :: ops, l => by
    have : setsOf (.set l' :: ops) = l' :: setsOf ops := rfl
    rw [cur, cur_eq ops, this, List.getLast?_cons]
    cases (setsOf ops).getLast? <;> rfl
  | .log _ _ :: ops, l => cur_eq ops l

theorem cur_levelAfter (ops : List LogOp) : cur ERROR ops = levelAfter ops := by
  rw [cur_eq]
  show _ = match (setsOf ops).getLast? with
    | none => 0
    | some l => if 0 ≤ l ∧ l ≤ 4 then l else 0
  cases (setsOf ops).getLast? with
  | none => rfl
  | some l => exact setLevel_eq l

theorem logRun_log (s : Int) (t : Bytes) : ∀ (ops : List LogOp) (l : Int),
    logRun l (ops ++ [.log s t]) = logRun l ops ++ if s ≤ cur l ops then [(s, t)] else []
  | [], l => by
    show (if decide (s ≤ l) = true then [(s, t)] else []) = [] ++ if s ≤ l then [(s, t)] else []
    by_cases h : s ≤ l
    · rw [if_pos h, if_pos (decide_eq_true h)]; rfl
    · rw [if_neg h, if_neg (by simpa using h)]; rfl
  | .set l' :: ops, l => logRun_log s t ops (setLevel l')
  | .log s' t' :: ops, l => by
    have ih := logRun_log s t ops l
    rw [List.cons_append, logRun, logRun]
    split
    · rw [ih]; rfl
    · exact ih

theorem levelAfter_nonneg (ops : List LogOp) : 0 ≤ levelAfter ops := by
  unfold levelAfter
  split
  · exact Int.le_refl _
  · split <;> omega

end FreeCoAP.Param
