import Verif.Common

/-!
# Programs that call the operating system and GnuTLS

A program is a tree of calls: what it does next depends on the results of the calls so far. A run is a list of calls with their results; every
list of results is a run, so that a statement about all runs is about every behaviour of the environment. A run may also stop at any moment, so
that a statement about all runs is about every moment of an execution.
-/

namespace FreeCoAP.Res

/-- The functions that are called. -/
inductive Op where
  | getaddrinfo | freeaddrinfo | socket | connect | setsockopt | bind | listen | accept | fcntl | select | timerfd | close | inetNtop | time | sleep
  | malloc | free | mattrInit | mattrSet | mattrDestroy | mutexInit | mutexDestroy | attrInit | attrSet | attrDestroy | threadCreate
  | globalInit | globalDeinit | credAlloc | credFree | setTrust | setCrl | setKey | setDh | dhInit | dhGenerate | dhDeinit | prioInit | prioDeinit
  | init | deinit | credSet | prioSet | setData | getData | handshake | dtlsTimeout | bye | recv | verifyPeers | certType | getPeers
  | crtInit | crtDeinit | crtImport | expiration | activation | checkName
  deriving DecidableEq, Repr

/-- A call and its result: the value that is returned, and the value of an output argument (a handle, flags, or `errno`). -/
structure Ev where
  op : Op
  args : List Nat
  res : Int
  out : Nat
  deriving DecidableEq, Repr

/-- A program. `cut` is a loop that goes on: programs with unbounded loops are modelled with a bound on the number of turns, and are `cut` when it
is reached. -/
inductive Prog (α : Type) where
  | ret (a : α)
  | cut
  | call (op : Op) (args : List Nat) (k : Int × Nat → Prog α)

/-- One program after the other. -/
def Prog.bind {α β : Type} : Prog α → (α → Prog β) → Prog β
  | .ret a, f => f a
  | .cut, _ => .cut
  | .call op args k, f => .call op args (fun r => (k r).bind f)

instance : Monad Prog where
  pure := .ret
  bind := .bind

/-- One call. -/
def sys (op : Op) (args : List Nat) : Prog (Int × Nat) := .call op args .ret

/-- A call whose result is not looked at. -/
def run_ (op : Op) (args : List Nat) : Prog Unit := .call op args (fun _ => .ret ())

/-- The runs of a program: the calls, and what the program returns if it has ended. -/
inductive Runs {α : Type} : Prog α → List Ev → Option α → Prop where
  | ret (a : α) : Runs (.ret a) [] (some a)
  | stop (p : Prog α) : Runs p [] none
  | call {op : Op} {args : List Nat} {k : Int × Nat → Prog α} (r : Int) (x : Nat) {l : List Ev} {a : Option α} :
      Runs (k (r, x)) l a → Runs (.call op args k) (⟨op, args, r, x⟩ :: l) a

/-- A run of two programs is a run of the first that stops, or one that ends, followed by a run of the second. -/
theorem Runs.bind_inv {α β : Type} {p : Prog α} {f : α → Prog β} {l : List Ev} {b : Option β} (h : Runs (p >>= f) l b) :
    (Runs p l none ∧ b = none) ∨ ∃ l1 l2 a, l = l1 ++ l2 ∧ Runs p l1 (some a) ∧ Runs (f a) l2 b := by
  induction p generalizing l with
  | ret a => exact Or.inr ⟨[], l, a, rfl, .ret a, h⟩
  | cut => cases h; exact Or.inl ⟨.stop _, rfl⟩
  | call op args k ih =>
    cases h with
    | stop => exact Or.inl ⟨.stop _, rfl⟩
    | call r x h =>
      rcases ih (r, x) h with ⟨h1, h2⟩ | ⟨l1, l2, a, rfl, h1, h2⟩
      · exact Or.inl ⟨.call r x h1, h2⟩
      · exact Or.inr ⟨_ :: l1, l2, a, rfl, .call r x h1, h2⟩

/-- A run of the first program that ends, followed by a run of the second, is a run of both. -/
theorem Runs.bind {α β : Type} {p : Prog α} {f : α → Prog β} {l1 l2 : List Ev} {a : α} {b : Option β} (h1 : Runs p l1 (some a))
    (h2 : Runs (f a) l2 b) : Runs (p >>= f) (l1 ++ l2) b := by
  generalize hr : some a = r at h1
  induction h1 with
  | ret a' => cases hr; exact h2
  | stop => cases hr
  | call r x _ ih => exact .call r x (ih hr)

end FreeCoAP.Res
