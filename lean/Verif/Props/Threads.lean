import Verif.Props.Cost
import Verif.Props.Memory
import Verif.Proof.Threads

/-! # C85: threads -/

namespace OpenMethod.Props

open Spec Examples

variable {E : RegId → Env} {strategy : Nat → Strategy} {mem mem' mem1 mem2 : RegId → RegState} {S S1 S2 : Sys} {i : Nat} {past past1 past2 : List OpResult}

/-- C85: threads call methods, create `virtual_ptr`s, use `next` and `has_next`, and initialize and finalize registries, in any interleaving of their accesses to memory. If a registry that is initialized or finalized by a
thread is not used by another one, and if no thread has undefined behaviour when executed alone, then there is no data race, the results of each thread are those it has when executed alone, and each thread that is
not finished can continue. -/
theorem C85 (hs : Separate strategy) (hw : ∀ i, ¬ Wrong E (strategy i) mem) (h : Interleaves E strategy (Sys.start mem) S) :
    ¬ S.Race ∧ (∀ i, ∃ mem', Alone E (strategy i) mem (S.threads i).past mem') ∧
    ∀ i, S.step E strategy i = none → (S.threads i).cur = none ∧ strategy i (S.threads i).past = none :=
  ⟨(reaches_ok hs hw h).no_race hs, fun i => let ⟨m, hm⟩ := reaches_ok hs hw h i; ⟨m, hm.alone⟩, fun i => (reaches_ok hs hw h).progress hw i⟩

theorem Alone.length_eq {st : Strategy} (h1 : Alone E st mem past1 mem1) : ∀ {past2 mem2}, Alone E st mem past2 mem2 → past1.length = past2.length → past1 = past2 ∧ mem1 = mem2 := by
  induction h1 with
  | nil =>
    intro past2 mem2 h2 hl
    cases h2 with
    | nil => exact ⟨rfl, rfl⟩
    | op _ _ _ => simp at hl
  | op h ho he ih =>
    intro past2 mem2 h2 hl
    cases h2 with
    | nil => simp at hl
    | op h' ho' he' =>
      obtain ⟨rfl, rfl⟩ := ih h' (by simpa using hl)
      rw [ho] at ho'
      obtain ⟨rfl, rfl⟩ := Prod.mk.inj (Option.some.inj ho')
      rw [he] at he'
      obtain ⟨rfl, rfl⟩ := Prod.mk.inj (Res.ok.inj he')
      exact ⟨rfl, rfl⟩

theorem Alone.take {st : Strategy} (h : Alone E st mem past mem') : ∀ n, ∃ m, Alone E st mem (past.take n) m := by
  induction h with
  | nil => intro n; exact ⟨_, by simpa using Alone.nil⟩
  | @op past _ r op o _ h ho he ih =>
    intro n
    by_cases hn : n ≤ past.length
    · obtain ⟨m, hm⟩ := ih n
      exact ⟨m, by rwa [List.take_append_of_le_length hn]⟩
    · exact ⟨_, by rw [List.take_of_length_le (by simp; omega)]; exact .op h ho he⟩

/-- The results of a thread do not depend on the interleaving: in two executions, those of the one that is further behind are the first ones of the other. -/
theorem C85_schedule (hs : Separate strategy) (hw : ∀ i, ¬ Wrong E (strategy i) mem) (h1 : Interleaves E strategy (Sys.start mem) S1) (h2 : Interleaves E strategy (Sys.start mem) S2)
    (hl : (S1.threads i).past.length ≤ (S2.threads i).past.length) : (S1.threads i).past <+: (S2.threads i).past := by
  obtain ⟨m1, a1⟩ := (C85 hs hw h1).2.1 i
  obtain ⟨m2, a2⟩ := (C85 hs hw h2).2.1 i
  obtain ⟨m, a⟩ := Alone.take a2 (S1.threads i).past.length
  rw [(Alone.length_eq a1 a (by simp [hl])).1]
  exact List.take_prefix _ _

/-- Calls, constructions of `virtual_ptr`s, `next` and `has_next` write no variable of the registry, and read those of C83. -/
theorem C85_reads {E : Env} {op : Op} (h : ¬ op.Writes) (s : RegState) : (op.prog E).ReadOnly ∧ ((op.prog E).run s).2 = s ∧
    ∀ m args types, op = .call m args types → (s.ss m.id).isSome → (Prog.call E.cfg m args types).cost s = Cost.call E.cfg s m args types := by
  refine ⟨Op.readOnly E h, by rw [(Op.readOnly E h).run], fun m args types _ hs => ?_⟩
  obtain ⟨ss, hss⟩ := Option.isSome_iff_exists.1 hs
  exact Prog.call_cost E.cfg hss args types

/-- The definition of data races is not too weak: a write that is not considered to be in conflict with a read does not change what is read. -/
theorem C85_footprint {l : Load} {w : Write} (h : ∀ x, l.loc = some x → x ∉ w.locs) (s : RegState) : l.get (w.apply s) = l.get s := by
  cases w with
  | global x =>
    cases x with
    | slotsStrides m ns =>
      cases l <;> try rfl
      rename_i m' i
      have hm : m' ≠ m := fun e => h _ rfl (by subst e; exact List.mem_cons_self)
      show (Function.update s.ss m (some ns) m').bind _ = _
      rw [Function.update_of_ne hm]; rfl
    | next v f =>
      cases l <;> try rfl
      rename_i v'
      have hm : v' ≠ v := fun e => h _ rfl (by subst e; exact List.mem_cons_self)
      exact Function.update_of_ne hm _ _
    | svptr v f =>
      cases l <;> try rfl
      rename_i v'
      have hm : v' ≠ v := fun e => h _ rfl (by subst e; exact List.mem_cons_self)
      exact Function.update_of_ne hm _ _
  | _ => cases l <;> first | rfl | exact absurd (by simp [Write.locs]) (h _ rfl)

/-- If no thread initializes or finalizes a registry, any number of threads can use all of them: each operation has the result it has in the initial state. -/
theorem C85_calls (hr : ∀ i past r op, strategy i past = some (r, op) → ¬ op.Writes) (hu : ∀ i past r op, strategy i past = some (r, op) → op.exec (E r) (mem r) ≠ .ub)
    (h : Interleaves E strategy (Sys.start mem) S) : ¬ S.Race ∧ ∀ i n o, (S.threads i).past[n]? = some o →
      ∃ r op, strategy i ((S.threads i).past.take n) = some (r, op) ∧ op.exec (E r) (mem r) = .ok (o, mem r) := by
  have hsep : Separate strategy := fun i j _ past r op hst hw => absurd hw (hr i past r op hst)
  have key : ∀ i past m, Alone E (strategy i) mem past m → m = mem ∧ ∀ n o, past[n]? = some o →
      ∃ r op, strategy i (past.take n) = some (r, op) ∧ op.exec (E r) (mem r) = .ok (o, mem r) := by
    intro i past m ha
    induction ha with
    | nil => exact ⟨rfl, fun n o hn => by simp at hn⟩
    | @op past _ r op o s _ ho he ih =>
      obtain ⟨rfl, ih⟩ := ih
      have hsame : s = ‹RegId → RegState› r := by
        have h1 := congrArg Prod.snd (Op.run_exec he)
        rw [(C85_reads (hr _ _ _ _ ho) _).2.1] at h1
        exact h1.symm
      subst hsame
      refine ⟨Function.update_eq_self _ _, fun n o' hn => ?_⟩
      rcases Nat.lt_trichotomy n past.length with hlt | rfl | hgt
      · rw [List.getElem?_append_left hlt] at hn
        rw [List.take_append_of_le_length hlt.le]
        exact ih n o' hn
      · rw [List.getElem?_concat_length] at hn
        obtain rfl := Option.some.inj hn
        exact ⟨r, op, by rw [List.take_left]; exact ho, he⟩
      · rw [List.getElem?_eq_none (by simp; omega)] at hn
        cases hn
  have hw : ∀ i, ¬ Wrong E (strategy i) mem := by
    rintro i ⟨past, m, r, op, ha, ho, he⟩
    rw [(key i past m ha).1] at he
    exact hu i past r op ho he
  refine ⟨(C85 hsep hw h).1, fun i => ?_⟩
  obtain ⟨m, ha⟩ := (C85 hsep hw h).2.1 i
  exact (key i _ m ha).2

/-! ## Concrete threads -/

/-- A thread that executes these operations. -/
def seq (ops : List (RegId × Op)) : Strategy := fun past => ops[past.length]?

def threads (l : List (List (RegId × Op))) (i : Nat) : Strategy := seq ((l[i]?).getD [])

def aloneB (E : RegId → Env) : List (RegId × Op) → (RegId → RegState) → Bool
  | [], _ => true
  | (r, op) :: ops, mem => match op.exec (E r) (mem r) with
    | .ok (_, s) => aloneB E ops (Function.update mem r s)
    | _ => false

theorem not_wrong {ops : List (RegId × Op)} (h : aloneB E ops mem = true) : ¬ Wrong E (seq ops) mem := by
  have key : ∀ past m, Alone E (seq ops) mem past m → aloneB E (ops.drop past.length) m = true := by
    intro past m ha
    induction ha with
    | nil => exact h
    | op _ ho he ih =>
      obtain ⟨hl, hg⟩ := List.getElem?_eq_some_iff.1 ho
      rw [List.drop_eq_getElem_cons hl, hg] at ih
      unfold aloneB at ih
      rw [he] at ih
      simpa using ih
  rintro ⟨past, m, r, op, ha, ho, he⟩
  have := key past m ha
  obtain ⟨hl, hg⟩ := List.getElem?_eq_some_iff.1 ho
  rw [List.drop_eq_getElem_cons hl, hg] at this
  unfold aloneB at this
  rw [he] at this
  cases this

def writesB : Op → Bool
  | .init _ | .final => true
  | _ => false

def separateB (l : List (List (RegId × Op))) : Bool :=
  (List.range l.length).all fun i => (List.range l.length).all fun j => i == j || ((l[i]?).getD []).all fun a => !writesB a.2 || ((l[j]?).getD []).all fun b => b.1 != a.1

theorem separate {l : List (List (RegId × Op))} (h : separateB l = true) : Separate (threads l) := by
  intro i j hij past r op hi hw past' op' hj
  have hb : writesB op = true := by cases op <;> first | rfl | exact hw.elim
  have lt : ∀ k q x, threads l k q = some x → k < l.length ∧ x ∈ (l[k]?).getD [] := by
    intro k q x hx
    refine ⟨?_, List.mem_of_getElem? hx⟩
    by_contra hn
    have hl : l[k]? = none := List.getElem?_eq_none (by omega)
    unfold threads seq at hx
    rw [hl] at hx
    cases hx
  obtain ⟨h1, m1⟩ := lt _ _ _ hi
  obtain ⟨h2, m2⟩ := lt _ _ _ hj
  unfold separateB at h
  simp only [List.all_eq_true, List.mem_range, Bool.or_eq_true, Bool.not_eq_true', beq_iff_eq, bne_iff_ne] at h
  rcases h i h1 j h2 with e | h
  · exact hij e
  · rcases h _ m1 with e | h
    · rw [hb] at e; cases e
    · exact h _ m2 rfl

/-- An execution: which thread makes the next access. -/
def Sys.exec (E : RegId → Env) (strategy : Nat → Strategy) : List Nat → Sys → Option Sys
  | [], S => some S
  | i :: is, S => (S.step E strategy i).bind (Sys.exec E strategy is)

theorem exec_reaches {l : List Nat} {S0 : Sys} (h0 : Interleaves E strategy S0 S1) (h : Sys.exec E strategy l S1 = some S2) : Interleaves E strategy S0 S2 := by
  induction l generalizing S1 with
  | nil => obtain rfl := Option.some.inj h; exact h0
  | cons i l ih =>
    obtain ⟨S', h1, h2⟩ := Option.bind_eq_some_iff.1 h
    exact ih (.step h0 h1) h2

/-- The functions entered by the calls of a thread. -/
def entered (S : Sys) (i : Nat) : List Nat := (S.threads i).past.filterMap fun o => match o with
  | .entered n => some n
  | _ => none

def nextReads {α : Type} : Prog α → List Loc
  | .load l _ => l.loc.toList
  | _ => []

def nextWrites {α : Type} : Prog α → List Loc
  | .write w _ => w.locs
  | _ => []

/-- Thread `i` is about to read what thread `j` is about to write. -/
def raceB (S : Sys) (i j : Nat) : Bool :=
  match (S.threads i).cur, (S.threads j).cur with
  | some (r, p), some (r', q) => i != j && r == r' && (nextReads p).any fun x => (nextWrites q).contains x
  | _, _ => false

theorem race {j : Nat} (h : raceB S i j = true) : S.Race := by
  unfold raceB at h
  split at h
  · rename_i r p r' q hi hj
    simp only [Bool.and_eq_true, bne_iff_ne, beq_iff_eq, List.any_eq_true, List.contains_iff_mem] at h
    obtain ⟨⟨hij, rfl⟩, x, hx, hy⟩ := h
    refine ⟨j, i, r, q, p, x, hij.symm, hj, hi, ?_, .inr ?_⟩
    · cases q with
      | write w k => exact hy
      | _ => cases hy
    · cases p with
      | load l k => exact Option.mem_toList.1 hx
      | _ => cases hx
  · cases h

/-! ## Registries cannot be initialized while they are used -/

/-- Without the hypothesis that a registry that is initialized by a thread is not used by other ones. -/
def C85_shared : Prop :=
  ∀ (E : RegId → Env) (strategy : Nat → Strategy) (mem : RegId → RegState) (S : Sys), (∀ i, ¬ Wrong E (strategy i) mem) → Interleaves E strategy (Sys.start mem) S →
    ¬ S.Race ∧ ∀ i, ∃ mem', Alone E (strategy i) mem (S.threads i).past mem'

/-- The registry, initialized. -/
def started (E : Env) (p : Program) : RegState := ((initOf E p .init).map (·.1)).getD .init

/-- A thread calls a method; another one initializes the registry again, after a library registered another method. -/
def reload : List (List (RegId × Op)) := [[(0, .call trot [.obj 1] [])], [(0, .init twoMethods)]]

theorem reload_alone (i : Nat) : ¬ Wrong (fun _ => env mapped) (threads reload i) fun _ => started (env mapped) oneMethod := by
  apply not_wrong
  match i with
  | 0 => show aloneB _ [(0, .call trot [.obj 1] [])] _ = true; decide +kernel
  | 1 => show aloneB _ [(0, .init twoMethods)] _ = true; decide +kernel
  | _ + 2 => rfl

/-- While the slots of the methods are written, and the tables of the new slots are not yet used: the call, with an object of class 1, enters the overrider for class 2. -/
def reloadSchedule : List Nat := [1, 1, 1, 1, 1] ++ List.replicate 8 0

theorem reload_wrong : (Sys.exec (fun _ => env mapped) (threads reload) reloadSchedule (Sys.start fun _ => started (env mapped) oneMethod)).map (entered · 0) = some [11] := by decide +kernel

/-- The thread is about to read the slots that the other one is about to write. -/
theorem reload_race : (Sys.exec (fun _ => env mapped) (threads reload) ([1, 1, 1, 1] ++ List.replicate 5 0) (Sys.start fun _ => started (env mapped) oneMethod)).map (raceB · 0 1) = some true := by decide +kernel

/-- Alone, the thread enters the overrider for class 1. -/
theorem reload_right : (Sys.exec (fun _ => env mapped) (threads reload) (List.replicate 8 0) (Sys.start fun _ => started (env mapped) oneMethod)).map (entered · 0) = some [10] := by decide +kernel

/-- `C85_shared` does not hold: there is no synchronisation between `initialize` and calls. There is a data race. -/
theorem C85_races : ∃ S, Interleaves (fun _ => env mapped) (threads reload) (Sys.start fun _ => started (env mapped) oneMethod) S ∧ S.Race := by
  obtain ⟨S, hS, hr⟩ := Option.map_eq_some_iff.1 reload_race
  exact ⟨S, exec_reaches .refl hS, race hr⟩

/-- Even if each access were atomic, so that the data race has no other effect, a call could enter an overrider for another class. -/
theorem C85_mixed : ∃ S, Interleaves (fun _ => env mapped) (threads reload) (Sys.start fun _ => started (env mapped) oneMethod) S ∧ entered S 0 = [11] ∧
    ∀ mem', ¬ Alone (fun _ => env mapped) (threads reload 0) (fun _ => started (env mapped) oneMethod) (S.threads 0).past mem' := by
  obtain ⟨S, hS, he⟩ := Option.map_eq_some_iff.1 reload_wrong
  refine ⟨S, exec_reaches .refl hS, he, fun mem' ha => ?_⟩
  have h1 : ∀ past m, Alone (fun _ => env mapped) (threads reload 0) (fun _ => started (env mapped) oneMethod) past m → past.length = 0 ∧ m = (fun _ => started (env mapped) oneMethod) ∨ past = [.entered 10] := by
    intro past m h
    induction h with
    | nil => exact .inl ⟨rfl, rfl⟩
    | op _ ho hx ih =>
      rcases ih with ⟨h0, rfl⟩ | rfl
      · unfold threads seq reload at ho
        rw [h0] at ho
        obtain ⟨rfl, rfl⟩ := Prod.mk.inj (Option.some.inj ho)
        obtain ⟨h3, _⟩ := OpResult.of_ok hx
        rw [show call (env mapped).cfg (started (env mapped) oneMethod) trot [.obj 1] [] = .ok 10 by decide +kernel] at h3
        obtain rfl := Res.ok.inj h3
        rw [List.length_eq_zero_iff.1 h0]
        exact .inr rfl
      · cases ho
  unfold entered at he
  rcases h1 _ _ ha with ⟨h0, _⟩ | h0
  · rw [List.length_eq_zero_iff.1 h0] at he; cases he
  · rw [h0] at he; exact absurd he (by decide)

theorem C85_shared_refuted : ¬ C85_shared := by
  intro h
  obtain ⟨S, hS, hr⟩ := C85_races
  exact (h _ _ _ _ reload_alone hS).1 hr

/-- `finalize` while the registry is used: the thread dereferences a pointer to released memory. -/
theorem C85_released : ∃ S, Interleaves (fun _ => env mapped) (threads [[(0, .call trot [.obj 1] [])], [(0, .final)]]) (Sys.start fun _ => started (env mapped) oneMethod) S ∧
    ∃ r, (S.threads 0).cur = some (r, .done .ub) := by
  have h : (Sys.exec (fun _ => env mapped) (threads [[(0, .call trot [.obj 1] [])], [(0, .final)]]) (List.replicate 5 0 ++ List.replicate 4 1 ++ List.replicate 2 0)
      (Sys.start fun _ => started (env mapped) oneMethod)).map (fun S => match (S.threads 0).cur with | some (_, .done .ub) => true | _ => false) = some true := by decide +kernel
  obtain ⟨S, hS, he⟩ := Option.map_eq_some_iff.1 h
  refine ⟨S, exec_reaches .refl hS, ?_⟩
  split at he
  · rename_i r hc; exact ⟨r, hc⟩
  · cases he

/-! ## The hypotheses are met -/

/-- `C85_footprint`: a slot of a method is read, those of another one are written. -/
example : ∀ x, (Load.slotsStrides 0 0).loc = some x → x ∉ (Write.global (.slotsStrides 1 [3])).locs := by
  intro x hx
  obtain rfl := Option.some.inj hx
  decide

/-- Two threads use registry 0; another one initializes registry 1, calls a method of it, and finalizes it. -/
def busy : List (List (RegId × Op)) :=
  [[(0, .call trot [.obj 1] []), (0, .call trot [.obj 2] [])], [(0, .make 2), (0, .call trot [.obj 2] [])], [(1, .init twoMethods), (1, .call dive [.obj 2] []), (1, .final)]]

def busyMem : RegId → RegState := Function.update (fun _ => .init) 0 (started (env hashed) oneMethod)

theorem busy_separate : Separate (threads busy) := separate (by decide +kernel)

theorem busy_alone (i : Nat) : ¬ Wrong (fun _ => env hashed) (threads busy i) busyMem := by
  apply not_wrong
  match i with
  | 0 => show aloneB _ [(0, .call trot [.obj 1] []), (0, .call trot [.obj 2] [])] _ = true; decide +kernel
  | 1 => show aloneB _ [(0, .make 2), (0, .call trot [.obj 2] [])] _ = true; decide +kernel
  | 2 => show aloneB _ [(1, .init twoMethods), (1, .call dive [.obj 2] []), (1, .final)] _ = true; decide +kernel
  | _ + 3 => rfl

/-- The threads, one access each in turn, until all are finished. -/
example : (Sys.exec (fun _ => env hashed) (threads busy) ((List.replicate 27 [0, 1, 2]).flatten ++ (List.replicate 3 [0, 2]).flatten ++ List.replicate 6 2) (Sys.start busyMem)).map
    (fun S => ((List.range 3).map (entered S ·), (List.range 3).map fun i => (S.step (fun _ => env hashed) (threads busy) i).isNone)) = some ([[10, 11], [11], [21]], [true, true, true]) := by decide +kernel

/-- `C85_calls`: the first two threads. -/
example : (∀ i past r op, threads (busy.take 2) i past = some (r, op) → ¬ op.Writes) ∧ ∀ i past r op, threads (busy.take 2) i past = some (r, op) → op.exec (env hashed) (busyMem r) ≠ .ub := by
  have key : ∀ i past r op, threads (busy.take 2) i past = some (r, op) → (r, op) ∈ (busy.take 2).flatten := by
    intro i past r op h
    have hm := List.mem_of_getElem? h
    match i with
    | 0 => exact List.mem_flatten.2 ⟨_, List.mem_cons_self, hm⟩
    | 1 => exact List.mem_flatten.2 ⟨_, List.mem_cons_of_mem _ List.mem_cons_self, hm⟩
    | _ + 2 => cases hm
  constructor
  · intro i past r op h
    have := key i past r op h
    simp only [busy, List.take, List.flatten_cons, List.flatten_nil, List.append_nil, List.cons_append, List.nil_append, List.mem_cons, Prod.mk.injEq, List.not_mem_nil, or_false] at this
    rcases this with ⟨_, rfl⟩ | ⟨_, rfl⟩ | ⟨_, rfl⟩ | ⟨_, rfl⟩ <;> exact fun h => h
  · intro i past r op h he
    have h1 : ((busy.take 2).flatten.all fun x => match x.2.exec (env hashed) (busyMem x.1) with | .ub => false | _ => true) = true := by decide +kernel
    have h2 := List.all_eq_true.1 h1 _ (key i past r op h)
    dsimp only at h2
    rw [he] at h2
    cases h2

end OpenMethod.Props
