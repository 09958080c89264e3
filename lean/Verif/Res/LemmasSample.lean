import Verif.Res.ModelSample
import Verif.Res.Props
import Verif.Res.LemmasProxy2

/-! # Lemmas about the sample programs -/

namespace FreeCoAP.Res

variable {x : Bool} {F : St}

/-- Memory. -/
def mems (l : List Nat) : St := ⟨l.map (fun n => (.mem, n)), []⟩

theorem mems_cons (n : Nat) (l : List Nat) : mems (n :: l) = one (.mem, n) + mems l := rfl

theorem mems_noMem (l : List Nat) : NoMem (mems l) := by simp [NoMem, mems]

theorem mems_sound {l : List Nat} {o : St} (hF : F.Sound) (hs : (o + (mems l + F)).Sound) : (mems l + F).Sound :=
  sound_rest hF (by simp [mems, ofLib]) rfl hs

/-- A program that works beside memory of one's own. -/
theorem beside {α : Type} {p : Prog α} {o : St} {l : List Nat} {Q : α → St → Prop} (hF : F.Sound) (h : (mems l + F).Sound → Safe x (mems l + F) o p Q) :
    Safe x F (o + mems l) p (fun a S' => ∃ o', S' = o' + mems l ∧ Q a o') := by
  intro hs
  rw [add_assoc] at hs
  exact Wp.frame (mems_sound hF hs) p o hs (h (mems_sound hF hs) hs)

theorem beside_none {α : Type} {p : Prog α} {l : List Nat} {Q : α → St → Prop} (hF : F.Sound) (h : (mems l + F).Sound → Safe x (mems l + F) none' p Q) :
    Safe x F (mems l) p (fun a S' => ∃ o', S' = o' + mems l ∧ Q a o') := beside (o := none') hF h

theorem free_mems {α : Type} {n : Nat} {l : List Nat} {k : Unit → Prog α} {Q : α → St → Prop} (hF : F.Sound) (h : Safe x F (mems l) (k ()) Q) :
    Safe x F (mems (n :: l)) (run_ .free [n] >>= k) Q := mem_free hF (mems_noMem l) h

theorem plus_mem (o : St) (n : Nat) (l : List Nat) : ((o + mems l).plus (.mem, n)).Same (o + mems (n :: l)) := by
  refine ⟨?_, fun t => .rfl⟩
  simp only [St.plus, add_held, mems, List.map_cons]
  exact List.perm_middle.symm

theorem malloc_mems {α : Type} {o : St} {l : List Nat} {k : Int × Nat → Prog α} {Q : α → St → Prop} (h0 : ∀ y, Safe x F (o + mems l) (k (0, y)) Q)
    (h1 : ∀ r y, r ≠ 0 → Safe x F (o + mems (y :: l)) (k (r, y)) Q) : Safe x F (o + mems l) (sys .malloc [] >>= k) Q :=
  Safe.malloc h0 (fun r y hr _ _ _ => Safe.same (plus_mem o y l) (h1 r y hr))

/-- The memory of a pool. -/
def poolMems (p : Nat × Nat) : List Nat := [p.2, p.1]

theorem poolCreate_safe {l : List Nat} (hF : F.Sound) :
    Safe x F (mems l) poolCreate (fun r o => match r with | none => o = mems l | some p => o = mems (poolMems p ++ l)) := by
  unfold poolCreate
  refine malloc_mems (o := none') (fun y => ?_) (fun r b hr => ?_)
  · rw [if_pos rfl]; exact Safe.pure rfl
  rw [if_neg hr]
  refine malloc_mems (o := none') (fun y => ?_) (fun r a hr => ?_)
  · rw [if_pos rfl]
    exact free_mems hF (Safe.pure rfl)
  rw [if_neg hr]
  exact Safe.pure rfl

theorem poolDestroy_safe {p : Nat × Nat} {l : List Nat} (hF : F.Sound) : Safe x F (mems (poolMems p ++ l)) (poolDestroy p) (fun _ o => o = mems l) :=
  free_mems hF (Safe.last (free_mems hF (Safe.pure rfl)))

/-- The memory of the pools. -/
def Pools.mems (p : Pools) : List Nat := poolMems p.large ++ (poolMems p.medium ++ (poolMems p.small ++ []))

theorem poolsCreate_safe (hF : F.Sound) : Safe x F none' poolsCreate (Leaves fun p => Res.mems p.mems) := by
  unfold poolsCreate
  refine (poolCreate_safe (l := []) hF).bind ?_
  rintro (_ | s) o ho
  · cases ho; exact Safe.pure rfl
  cases ho
  dsimp only
  refine (poolCreate_safe hF).bind ?_
  rintro (_ | m) o ho
  · cases ho
    refine (poolDestroy_safe hF).bind ?_
    rintro _ o rfl
    exact Safe.pure rfl
  cases ho
  dsimp only
  refine (poolCreate_safe hF).bind ?_
  rintro (_ | l) o ho
  · cases ho
    refine (poolDestroy_safe hF).bind ?_
    rintro _ o rfl
    refine (poolDestroy_safe hF).bind ?_
    rintro _ o rfl
    exact Safe.pure rfl
  cases ho
  exact Safe.pure rfl

theorem poolsDestroy_safe {p : Pools} (hF : F.Sound) : Safe x F (mems p.mems) (poolsDestroy p) (fun _ o => o = none') := by
  unfold poolsDestroy
  refine (poolDestroy_safe hF).bind ?_
  rintro _ o rfl
  refine (poolDestroy_safe hF).bind ?_
  rintro _ o rfl
  exact poolDestroy_safe hF

theorem sampleInit_safe {ver : Bool} (hF : F.Sound) : Safe x F none' (sampleInit ver) (Leaves fun p => mems p.mems) := by
  unfold sampleInit
  refine (poolsCreate_safe hF).bind ?_
  rintro (_ | p) o ho
  · cases ho; exact Safe.pure rfl
  cases ho
  dsimp only
  split
  · exact fail (poolsDestroy_safe hF)
  · exact Safe.pure rfl

theorem errand_safe {file ok : Bool} {o : St} {l : List Nat} (hF : F.Sound) (hn : NoMem o) :
    Safe x F (o + mems l) (errand file ok) (fun _ o' => o' = o + mems l) := by
  unfold errand
  split
  · refine malloc_mems (fun y => ?_) (fun r y hr => ?_)
    · rw [if_pos rfl]; exact Safe.pure rfl
    rw [if_neg hr]
    refine Safe.same (o' := one (.mem, y) + (o + mems l)) ?_ (mem_free hF (hn.add (mems_noMem l)) (Safe.pure rfl))
    refine ⟨?_, fun t => .rfl⟩
    simp only [add_held, mems, one, List.map_cons, List.cons_append, List.nil_append]
    exact List.perm_middle
  · exact Safe.pure rfl

theorem clientMain_safe {args ver dtls : Bool} {addrs : List Bool} {trust crl : Bool} {name : Option Nat} {file ok : Bool} (hF : F.Sound) :
    Safe x F none' (clientMain args ver dtls addrs trust crl name file ok) (fun _ o => o = none') := by
  unfold clientMain
  split
  · exact Safe.pure rfl
  refine (sampleInit_safe hF).bind ?_
  rintro (_ | p) o ho
  · cases ho; exact Safe.pure rfl
  cases ho
  dsimp only
  refine (beside_none hF (fun hF => clientCreate_safe hF)).bind ?_
  rintro (_ | c) _ ⟨o', rfl, ho⟩
  · cases ho
    refine (poolsDestroy_safe hF).bind ?_
    rintro _ o rfl
    exact Safe.pure rfl
  cases ho
  dsimp only
  refine (errand_safe hF c.noMem).bind ?_
  rintro ok' _ rfl
  refine (beside hF (fun hF => clientDestroy_safe hF)).bind ?_
  rintro _ _ ⟨o', rfl, rfl⟩
  refine (poolsDestroy_safe hF).bind ?_
  rintro _ o rfl
  exact Safe.pure rfl

theorem tasks_safe {auth : Bool} {v : Server} {l : List Nat} (hF : F.Sound) : ∀ (todo : List Task) (ts : List (Option Trans)) (es : List Nat) (o : St),
    TransLeft v ts o → Safe false F (o + mems (es ++ l)) (tasks auth v ts es todo) (fun r S => ∃ o', S = o' + mems (r.2 ++ l) ∧ TransLeft v r.1 o')
  | [], ts, es, o, h => Safe.pure ⟨o, rfl, h⟩
  | .lib a :: todo, ts, es, o, h => by
    rw [tasks]
    refine (beside hF (fun hF => act_safe hF h)).bind ?_
    rintro ts' _ ⟨o', rfl, h', -⟩
    exact tasks_safe hF todo ts' es o' h'
  | .entry :: todo, ts, es, o, h => by
    rw [tasks]
    refine malloc_mems (fun y => ?_) (fun r y hr => ?_)
    · rw [if_pos rfl]; exact tasks_safe hF todo ts es o h
    rw [if_neg hr]
    exact tasks_safe hF todo ts (y :: es) o h

theorem trans_noMem {v : Server} : ∀ ts : List (Option Trans), NoMem (transsObjs v ts)
  | [] => by simp [NoMem, transsObjs, none']
  | none :: ts => trans_noMem ts
  | some t :: ts => by
    rw [transsObjs]
    refine NoMem.add ?_ (trans_noMem ts)
    unfold Trans.objs
    split <;> simp [NoMem, add_refs, fdObj, one, none', sessObjs]

theorem TransLeft.noMem {v : Server} {ts : List (Option Trans)} {o : St} (h : TransLeft v ts o) : NoMem o := by
  intro t ht
  have h1 := (h.1.2 t).1 ht
  refine ((trans_noMem ts).add ?_) t h1
  unfold Server.objs
  split <;> simp [NoMem, add_refs, fdObj, one, none', SDtls.objs]

theorem registrarDestroy_safe {o : St} {l : List Nat} (hF : F.Sound) (hn : NoMem o) : ∀ es : List Nat,
    Safe x F (o + mems (es ++ l)) (registrarDestroy es) (fun _ S => S = o + mems l)
  | [] => Safe.pure rfl
  | e :: es => by
    rw [registrarDestroy]
    refine Safe.same (o' := one (.mem, e) + (o + mems (es ++ l))) ?_ (mem_free hF (hn.add (mems_noMem _)) (registrarDestroy_safe hF hn es))
    refine ⟨?_, fun t => .rfl⟩
    simp only [add_held, mems, one, List.map_cons, List.cons_append, List.nil_append]
    exact List.perm_middle

theorem serverMain_safe {args ver dtls auth : Bool} {addrs : List Bool} {trust crl : Bool} {n : Nat} {todo : List Task} {ok : Bool} (hF : F.Sound) :
    Safe false F none' (serverMain args ver dtls auth addrs trust crl n todo ok) (fun _ o => o = none') := by
  unfold serverMain
  split
  · exact Safe.pure rfl
  refine (sampleInit_safe hF).bind ?_
  rintro (_ | p) o ho
  · cases ho; exact Safe.pure rfl
  cases ho
  dsimp only
  refine (beside_none hF (fun hF => serverCreate_safe hF)).bind ?_
  rintro (_ | v) _ ⟨o', rfl, ho⟩
  · cases ho
    refine (poolsDestroy_safe hF).bind ?_
    rintro _ o rfl
    exact Safe.pure rfl
  cases ho
  dsimp only
  refine (tasks_safe (l := p.mems) hF todo (List.replicate n none) [] _ ⟨?_, ?_⟩).bind ?_
  · rw [transsObjs_replicate]; exact St.Same.refl _
  · intro t ht
    exact absurd (List.mem_replicate.1 ht).2 (by simp)
  rintro ⟨ts, es⟩ _ ⟨o', rfl, h⟩
  refine (registrarDestroy_safe hF h.noMem es).bind ?_
  rintro _ _ rfl
  refine (beside hF (fun hF => serverDestroy_safe hF h)).bind ?_
  rintro _ _ ⟨o', rfl, rfl⟩
  refine (poolsDestroy_safe hF).bind ?_
  rintro _ o rfl
  exact Safe.pure rfl

end FreeCoAP.Res
