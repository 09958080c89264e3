import Verif.Res.Lemmas

/-!
# Executing programs with given results
-/

namespace FreeCoAP.Res

/-- The run of a program in which the calls give the results in the list; it stops when there are none left. -/
def exec {α : Type} : Prog α → List (Int × Nat) → List Ev × Option α
  | .ret a, _ => ([], some a)
  | .cut, _ => ([], none)
  | .call _ _ _, [] => ([], none)
  | .call op args k, r :: rs => (⟨op, args, r.1, r.2⟩ :: (exec (k r) rs).1, (exec (k r) rs).2)

theorem exec_runs {α : Type} : ∀ (p : Prog α) (rs : List (Int × Nat)), Runs p (exec p rs).1 (exec p rs).2
  | .ret a, rs => by rw [exec]; exact .ret a
  | .cut, rs => by rw [exec]; exact .stop _
  | .call op args k, [] => by rw [exec]; exact .stop _
  | .call op args k, r :: rs => by
    rw [exec]
    exact .call r.1 r.2 (exec_runs (k r) rs)

/-- The program ends with these results, all of which are honest, it keeps the rules, and then there are `n` objects more than before. -/
def endsWith {α : Type} (x : Bool) (p : Prog α) (rs : List (Int × Nat)) (n : Nat) : Bool :=
  match (exec p rs).2, replay x none' (exec p rs).1 with
  | some _, .ok S => S.held.length == n
  | _, _ => false

/-- The program breaks the rules with these results. -/
def breaks {α : Type} (x : Bool) (p : Prog α) (rs : List (Int × Nat)) : Bool :=
  match replay x none' (exec p rs).1 with
  | .misuse => true
  | _ => false

theorem sound_none : none'.Sound :=
  ⟨(by rintro ⟨h, hh, -⟩; cases hh), (by intro t ht; cases ht), by simp [none']⟩

/-- A program that ends with an object more does not leave what there was. -/
theorem not_keeps_more {α : Type} {x : Bool} {p : Prog α} {rs : List (Int × Nat)} {n : Nat} {Q : α → St → Prop} (h : endsWith x p rs n = true)
    (hQ : ∀ a S', (exec p rs).2 = some a → Q a S' → S'.held.length ≠ n) : ¬ Keeps x none' p Q := by
  intro hk
  have h1 := hk _ _ (exec_runs p rs)
  unfold endsWith at h
  split at h
  · rename_i a S ha hr
    rw [hr] at h1
    exact hQ a S ha (h1 a ha) (by simpa using h)
  · cases h

/-- A program that breaks the rules does not keep them. -/
theorem not_keeps_breaks {α : Type} {x : Bool} {p : Prog α} {rs : List (Int × Nat)} {Q : α → St → Prop} (h : breaks x p rs = true) :
    ¬ Keeps x none' p Q := by
  intro hk
  have h1 := hk _ _ (exec_runs p rs)
  unfold breaks at h
  split at h
  · rename_i hr
    rw [hr] at h1
    exact h1
  · cases h

end FreeCoAP.Res
