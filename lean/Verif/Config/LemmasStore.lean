import Verif.Config.Spec

/-!
# Lemmas on the configuration as a map
-/

namespace FreeCoAP.Config

theorem findEntry_name {n : Bytes} : ∀ {es : List Entry} {e : Entry}, findEntry n es = some e → e.name = n
  | [], e, h => by cases h
  | a :: es, e, h => by
    unfold findEntry at h
    split at h
    · cases h; assumption
    · exact findEntry_name h

theorem findEntry_replace {mem : Nat → Bool} {n v : Bytes} : ∀ {es : List Entry} {e : Entry}, findEntry n es = some e →
    findEntry n (replace mem n v es) = some { e with value := if room mem v then some v else none }
  | [], e, h => by cases h
  | a :: es, e, h => by
    unfold findEntry at h
    unfold replace
    split at h
    · rename_i ha
      cases h
      rw [if_pos ha]
      unfold findEntry
      rw [if_pos ha]
    · rename_i ha
      rw [if_neg ha]
      unfold findEntry
      rw [if_neg ha]
      exact findEntry_replace h

theorem findEntry_replace_ne {mem : Nat → Bool} {n n' v : Bytes} (hn : n' ≠ n) : ∀ {es : List Entry},
    findEntry n' (replace mem n v es) = findEntry n' es
  | [] => rfl
  | a :: es => by
    unfold replace
    split
    · rename_i ha
      unfold findEntry
      rw [if_neg (fun h : a.name = n' => hn (h.symm.trans ha)), if_neg (fun h : a.name = n' => hn (h.symm.trans ha))]
    · unfold findEntry
      rw [findEntry_replace_ne hn]

theorem findEntry_append {n : Bytes} {b : List Entry} : ∀ {es : List Entry},
    findEntry n (es ++ b) = (findEntry n es).or (findEntry n b)
  | [] => by simp [findEntry]
  | a :: es => by
    rw [List.cons_append, findEntry.eq_2, findEntry.eq_2]
    split
    · simp
    · exact findEntry_append

theorem findSection_append {n : Bytes} {b : Store} : ∀ {ss : Store}, findSection n (ss ++ b) = (findSection n ss).or (findSection n b)
  | [] => by simp [findSection]
  | a :: es => by
    rw [List.cons_append, findSection.eq_2, findSection.eq_2]
    split
    · simp
    · exact findSection_append

theorem findSection_update {sec : Bytes} {es : List Entry} : ∀ {st : Store} {s : Section}, findSection sec st = some s →
    findSection sec (update sec es st) = some { s with entries := es }
  | [], s, h => by cases h
  | a :: st, s, h => by
    unfold findSection at h
    unfold update
    split at h
    · rename_i ha
      cases h
      rw [if_pos ha]
      unfold findSection
      rw [if_pos ha]
    · rename_i ha
      rw [if_neg ha]
      unfold findSection
      rw [if_neg ha]
      exact findSection_update h

theorem findSection_update_ne {sec sec' : Bytes} {es : List Entry} (hn : sec' ≠ sec) : ∀ {st : Store},
    findSection sec' (update sec es st) = findSection sec' st
  | [] => rfl
  | a :: st => by
    unfold update
    split
    · rename_i ha
      unfold findSection
      rw [if_neg (fun h : a.name = sec' => hn (h.symm.trans ha)), if_neg (fun h : a.name = sec' => hn (h.symm.trans ha))]
    · unfold findSection
      rw [findSection_update_ne hn]

/-- The value of a name in the entries of a section. -/
def valueOf (n : Bytes) (es : List Entry) : Option Bytes := (findEntry n es).bind Entry.value

theorem get_eq (st : Store) (sec n : Bytes) : get st sec n = (findSection sec st).bind (fun s => valueOf n s.entries) := by
  unfold get valueOf
  cases findSection sec st with
  | none => rfl
  | some s =>
    dsimp only [Option.bind_some]
    cases findEntry n s.entries <;> rfl

theorem setEntry_value (mem : Nat → Bool) (n v : Bytes) (es : List Entry) (n' : Bytes) :
    valueOf n' (setEntry mem n v es).1 = if n' = n then (if (setEntry mem n v es).2 then some v else none) else valueOf n' es := by
  unfold setEntry
  cases hf : findEntry n es with
  | some e =>
    dsimp only
    unfold valueOf
    split
    · rename_i hn
      rw [hn, findEntry_replace hf]
      rfl
    · rename_i hn
      rw [findEntry_replace_ne hn]
  | none =>
    dsimp only
    unfold valueOf
    by_cases hc : (mem 24 && room mem n && room mem v) = true
    · rw [if_pos hc]
      dsimp only
      rw [findEntry_append]
      split
      · rename_i hn
        rw [hn, hf]
        simp [findEntry]
      · rename_i hn
        simp [findEntry, Ne.symm hn]
    · rw [if_neg hc]
      dsimp only
      split
      · rename_i hn
        rw [hn, hf]
        rfl
      · rfl

/-- What a setting changes. -/
theorem get_set (mem : Nat → Bool) (st : Store) (sec n v sec' n' : Bytes) :
    get (set mem st sec n v).1 sec' n' =
      if sec' = sec ∧ n' = n then (if (set mem st sec n v).2 then some v else none) else get st sec' n' := by
  rw [get_eq, get_eq]
  unfold set
  cases hf : findSection sec st with
  | some s =>
    dsimp only
    by_cases hs : sec' = sec
    · subst hs
      rw [findSection_update hf, hf]
      dsimp only [Option.bind_some]
      rw [setEntry_value]
      by_cases hn : n' = n <;> simp [hn]
    · rw [findSection_update_ne hs, if_neg (fun h => hs h.1)]
  | none =>
    dsimp only
    by_cases hc : (mem 32 && room mem sec) = true
    · rw [if_pos hc]
      dsimp only
      rw [findSection_append]
      by_cases hs : sec' = sec
      · subst hs
        rw [hf]
        simp only [Option.none_or, findSection, if_true, Option.bind_some, true_and]
        rw [setEntry_value]
        by_cases hn : n' = n
        · simp [hn]
        · simp [hn, valueOf, findEntry]
      · rw [if_neg (fun h => hs h.1)]
        simp [findSection, Ne.symm hs]
    · rw [if_neg hc]
      dsimp only
      split
      · rename_i h
        rw [h.1, hf]
        rfl
      · rfl

theorem set_mem {mem : Nat → Bool} (hm : ∀ n, mem n = true) (st : Store) (sec n v : Bytes) : (set mem st sec n v).2 = true := by
  have hr : ∀ s, room mem s = true := fun s => hm _
  have he : ∀ es, (setEntry mem n v es).2 = true := by
    intro es
    unfold setEntry
    cases findEntry n es with
    | some e => exact hr v
    | none =>
      dsimp only
      rw [if_pos (by simp [hm, hr])]
  unfold set
  cases findSection sec st with
  | some s => exact he _
  | none =>
    dsimp only
    rw [if_pos (by simp [hm, hr])]
    exact he _

end FreeCoAP.Config
