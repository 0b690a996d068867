import Verif.Props.Threads
import Verif.Props.Registrars
import Verif.Proof.Loading

/-! # C91: libraries are loaded while methods are called -/

namespace OpenMethod.Props

open Spec Examples

variable {L : RegId → Setting} {strategy : Nat → LStrategy} {mem : RegId → Home} {S : LSys}

/-- C91: threads call methods and use registries as in C85; they also load and unload libraries, that register classes, methods and overriders, and set error handlers. If what a thread changes
is not used by another one, in the sense of `LSeparate`, and if no thread has undefined behaviour when executed alone, then there is no data race; the results of each thread are those it has when
executed alone, and, between two operations, it finds the variables it uses as it left them; each thread that is not finished can continue. -/
theorem C91 (hs : LSeparate strategy) (hw : ∀ i, ¬ LWrong L (strategy i) mem) (h : LInterleaves L strategy (LSys.start mem) S) :
    ¬ S.Race ∧
    (∀ i, ∃ m, LAlone L (strategy i) mem (S.threads i).past m ∧
      ((S.threads i).cur = none → ∀ past r op, strategy i past = some (r, op) → ∀ x ∈ op.uses, (S.mem r).Same (m r) x)) ∧
    ∀ i, S.step L strategy i = none → (S.threads i).cur = none ∧ strategy i (S.threads i).past = none := by
  obtain ⟨m, hk⟩ := linterleaves_ok hs hw h
  refine ⟨lno_race hs hk, fun i => ?_, fun i hn => ?_⟩
  · cases hc : (S.threads i).cur with
    | none => exact ⟨m i, (hk i).idle hc, fun _ past r op ho x hx => (hk i).agree r x ⟨past, op, ho, hx⟩⟩
    | some y =>
      obtain ⟨-, m0, _, ha, -⟩ := (hk i).busy y.1 y.2 hc
      exact ⟨m0, ha, nofun⟩
  · unfold LSys.step LThread.step at hn
    cases hc : (S.threads i).cur with
    | none =>
      refine ⟨rfl, ?_⟩
      rw [hc] at hn
      cases ho : strategy i (S.threads i).past with
      | none => rfl
      | some y => rw [ho] at hn; cases hn
    | some y =>
      obtain ⟨r, p⟩ := y
      rw [hc] at hn
      cases p with
      | stuck => exact absurd hc ((hk i).not_stuck (hw i))
      | done o => cases hn
      | tables q =>
        cases q with
        | done x =>
          cases x with
          | ok o =>
            simp only [LProg.step] at hn
            cases he : o.err? with
            | none => rw [he] at hn; cases hn
            | some e => rw [he] at hn; cases hn
          | err e => cases hn
          | ub => cases hn
        | load l k => cases hn
        | inspect k => cases hn
        | write w k => cases hn
      | lists k => cases hn
      | link l k => cases hn
      | handler k => cases hn
      | install f k => cases hn

/-- While libraries are loaded and unloaded, and no registry is initialized, operations have the result they have in the initial state of the tables: registrations have no effect on them. -/
theorem C91_calls (hs : LSeparate strategy) (hw : ∀ i, ¬ LWrong L (strategy i) mem) (h : LInterleaves L strategy (LSys.start mem) S)
    (hr : ∀ i past r op, strategy i past = some (r, op) → (∃ o ho, op = .use o ho) ∨ ∃ e, op = .register e) (i n : Nat) {o : LResult} (hn : (S.threads i).past[n]? = some o)
    {r : RegId} {op : Op} {ho} (hst : strategy i ((S.threads i).past.take n) = some (r, .use op ho)) :
    ∃ x, op.exec (L r).env (mem r).tables = .ok (x, (mem r).tables) ∧ o = .of (mem r).handler x := by
  have key : ∀ past m, LAlone L (strategy i) mem past m → (∀ r, (m r).tables = (mem r).tables ∧ (m r).handler = (mem r).handler) ∧ ∀ n o, past[n]? = some o →
      ∀ r op ho, strategy i (past.take n) = some (r, .use op ho) → ∃ x, op.exec (L r).env (mem r).tables = .ok (x, (mem r).tables) ∧ o = .of (mem r).handler x := by
    intro past m ha
    induction ha with
    | nil => exact ⟨fun _ => ⟨rfl, rfl⟩, fun n o hn => by simp at hn⟩
    | @op past m r op o s _ ho he ih =>
      obtain ⟨ih1, ih2⟩ := ih
      have hstep : (s.tables = (m r).tables ∧ s.handler = (m r).handler) ∧ ∀ q hq, op = .use q hq →
          ∃ x, q.exec (L r).env (m r).tables = .ok (x, (m r).tables) ∧ o = .of (m r).handler x := by
        rcases hr _ _ _ _ ho with ⟨q, hq, rfl⟩ | ⟨e, rfl⟩
        · obtain ⟨⟨x, t⟩, hx, hy⟩ := Res.bind_eq_ok.1 he
          obtain ⟨rfl, rfl⟩ := Prod.mk.inj (Res.ok.inj hy)
          have hro : ¬ q.Writes := by cases q <;> first | exact id | cases hq
          have h1 := congrArg Prod.snd (Op.run_exec hx)
          rw [(C85_reads hro _).2.1] at h1
          have h1 : (m r).tables = t := h1
          subst h1
          refine ⟨⟨rfl, rfl⟩, fun q' hq' e => ?_⟩
          cases e
          exact ⟨x, hx, rfl⟩
        · unfold LOp.exec at he
          dsimp only at he
          split at he
          · obtain ⟨rfl, rfl⟩ := Prod.mk.inj (Res.ok.inj he)
            exact ⟨⟨rfl, rfl⟩, nofun⟩
          · cases he
      refine ⟨fun r' => ?_, fun n o' hn r' op' ho' hst => ?_⟩
      · by_cases h : r' = r
        · subst h
          rw [Function.update_self, hstep.1.1, hstep.1.2]
          exact ih1 _
        · rw [Function.update_of_ne h]; exact ih1 _
      · rcases Nat.lt_trichotomy n past.length with hlt | rfl | hgt
        · rw [List.getElem?_append_left hlt] at hn
          rw [List.take_append_of_le_length hlt.le] at hst
          exact ih2 n o' hn r' op' ho' hst
        · rw [List.getElem?_concat_length] at hn
          obtain rfl := Option.some.inj hn
          rw [List.take_left, ho] at hst
          obtain ⟨rfl, rfl⟩ := Prod.mk.inj (Option.some.inj hst)
          obtain ⟨x, hx, hy⟩ := hstep.2 _ _ rfl
          rw [(ih1 r).1] at hx
          rw [(ih1 r).2] at hy
          exact ⟨x, hx, hy⟩
        · rw [List.getElem?_eq_none (by simp; omega)] at hn
          cases hn
  obtain ⟨m, ha, -⟩ := (C91 hs hw h).2.1 i
  exact (key _ _ ha).2 n o hn r op ho hst

/-! ## Concrete threads -/

/-- A thread that executes these operations. -/
def lseq (ops : List (RegId × LOp)) : LStrategy := fun past => ops[past.length]?

def lthreads (l : List (List (RegId × LOp))) (i : Nat) : LStrategy := lseq ((l[i]?).getD [])

def laloneB (L : RegId → Setting) : List (RegId × LOp) → (RegId → Home) → Bool
  | [], _ => true
  | (r, op) :: ops, mem => match op.exec (L r) (mem r) with
    | .ok (_, h) => laloneB L ops (Function.update mem r h)
    | _ => false

theorem lnot_wrong {ops : List (RegId × LOp)} (h : laloneB L ops mem = true) : ¬ LWrong L (lseq ops) mem := by
  have key : ∀ past m, LAlone L (lseq ops) mem past m → laloneB L (ops.drop past.length) m = true := by
    intro past m ha
    induction ha with
    | nil => exact h
    | op _ ho he ih =>
      obtain ⟨hl, hg⟩ := List.getElem?_eq_some_iff.1 ho
      rw [List.drop_eq_getElem_cons hl, hg] at ih
      unfold laloneB at ih
      rw [he] at ih
      simpa using ih
  rintro ⟨past, m, r, op, ha, ho, he⟩
  have := key past m ha
  obtain ⟨hl, hg⟩ := List.getElem?_eq_some_iff.1 ho
  rw [List.drop_eq_getElem_cons hl, hg] at this
  unfold laloneB at this
  rw [he] at this
  cases this

def lseparateB (l : List (List (RegId × LOp))) : Bool :=
  (List.range l.length).all fun i => (List.range l.length).all fun j => i == j || ((l[i]?).getD []).all fun a => ((l[j]?).getD []).all fun b =>
    b.1 != a.1 || a.2.alters.all fun x => !b.2.uses.contains x

theorem lseparate {l : List (List (RegId × LOp))} (h : lseparateB l = true) : LSeparate (lthreads l) := by
  intro i j hij past r op hi past' op' hj x hx hu
  have lt : ∀ k q x, lthreads l k q = some x → k < l.length ∧ x ∈ (l[k]?).getD [] := by
    intro k q x hx
    refine ⟨?_, List.mem_of_getElem? hx⟩
    by_contra hn
    have hl : l[k]? = none := List.getElem?_eq_none (by omega)
    unfold lthreads lseq at hx
    rw [hl] at hx
    cases hx
  obtain ⟨h1, m1⟩ := lt _ _ _ hi
  obtain ⟨h2, m2⟩ := lt _ _ _ hj
  unfold lseparateB at h
  simp only [List.all_eq_true, List.mem_range, Bool.or_eq_true, Bool.not_eq_true', beq_iff_eq, bne_iff_ne] at h
  rcases h i h1 j h2 with e | h
  · exact hij e
  · rcases h _ m1 _ m2 with e | h
    · exact e rfl
    · have := h x hx
      rw [List.contains_iff_mem.2 hu] at this
      cases this

/-- An execution: which thread makes the next access. -/
def LSys.exec (L : RegId → Setting) (strategy : Nat → LStrategy) : List Nat → LSys → Option LSys
  | [], S => some S
  | i :: is, S => (S.step L strategy i).bind (LSys.exec L strategy is)

theorem lexec_reaches {l : List Nat} {S0 S1 S2 : LSys} (h0 : LInterleaves L strategy S0 S1) (h : LSys.exec L strategy l S1 = some S2) : LInterleaves L strategy S0 S2 := by
  induction l generalizing S1 with
  | nil => obtain rfl := Option.some.inj h; exact h0
  | cons i l ih =>
    obtain ⟨S', h1, h2⟩ := Option.bind_eq_some_iff.1 h
    exact ih (.step h0 h1) h2

/-- The functions entered by the calls of a thread. -/
def lentered (S : LSys) (i : Nat) : List Nat := (S.threads i).past.filterMap fun o => match o with
  | .op (.entered n) => some n
  | _ => none

/-- The group of variables that the next access reads. -/
def lnextReads : LProg → Option LPart
  | .tables (.load _ _) => some .tables
  | .lists _ => some .lists
  | .handler _ => some .handler
  | _ => none

def lnextWrites : LProg → Option LPart
  | .tables (.write _ _) => some .tables
  | .link _ _ => some .lists
  | .install _ _ => some .handler
  | _ => none

/-- Thread `j` is about to write what thread `i` is about to read or write. -/
def lraceB (S : LSys) (i j : Nat) : Bool :=
  match (S.threads i).cur, (S.threads j).cur with
  | some (r, p), some (r', q) => i != j && r == r' && (lnextWrites q).any fun x => lnextReads p == some x || lnextWrites p == some x
  | _, _ => false

theorem lrace {i j : Nat} (h : lraceB S i j = true) : S.Race := by
  have hr : ∀ p x, lnextReads p = some x → p.reads x := by
    intro p x h
    unfold lnextReads at h
    split at h <;> first | exact (Option.some.inj h).symm | cases h
  have hc : ∀ p x, lnextWrites p = some x → p.changes x := by
    intro p x h
    unfold lnextWrites at h
    split at h <;> first | exact (Option.some.inj h).symm | cases h
  unfold lraceB at h
  split at h
  · rename_i r p r' q hi hj
    simp only [Bool.and_eq_true, bne_iff_ne, beq_iff_eq, Option.any_eq_true, Bool.or_eq_true] at h
    obtain ⟨⟨hij, rfl⟩, x, hx, hy⟩ := h
    refine ⟨j, i, r, q, p, x, hij.symm, hj, hi, hc _ _ hx, ?_⟩
    rcases hy with hy | hy
    · exact .inr (hr _ _ hy)
    · exact .inl (hc _ _ hy)
  · cases h

/-- The program of `Props.Registrars`: classes 1, 2 and 3, method 7 with an overrider for each class. -/
def libSetting : Setting := { env := env mapped, decls := regDecls, rtti := regRtti, now := regIds, fuel := 9 }

/-- Classes 1 and 2, and the method, are registered. -/
def libLists : Registrars :=
  match Registrars.init.run false ([.useClass 1, .useClass 2, .declare 7, .override 7 1, .override 7 2].map (·, regIds)) with
  | .ok l => l
  | _ => .init

/-- The registry is initialized; the error handler is function 5. -/
def libHome : Home where
  tables := ((libLists.program false regDecls regRtti 9 regIds).map fun p => started (env mapped) p).getD .init
  lists := libLists
  handler := 5

/-- The method, as calls see it. -/
def libMethod : MethodInfo := ⟨7, [true], [1], 0, []⟩

def libCall (t : TypeId) : LOp := .use (.call libMethod [.obj t] []) rfl

/-- Two threads call the method, another one loads a library with class 3 and an overrider for it. -/
def whileLoading : List (List (RegId × LOp)) :=
  [[(0, libCall 1), (0, libCall 2)], [(0, libCall 2)], [(0, .register (.useClass 3)), (0, .register (.override 7 3))]]

/-! ## Without the condition -/

/-- Without hypothesis `LSeparate`. -/
def C91_shared : Prop :=
  ∀ (L : RegId → Setting) (strategy : Nat → LStrategy) (mem : RegId → Home) (S : LSys), (∀ i, ¬ LWrong L (strategy i) mem) → LInterleaves L strategy (LSys.start mem) S →
    ¬ S.Race ∧ ∀ i, ∃ m, LAlone L (strategy i) mem (S.threads i).past m

/-- Two libraries are loaded at the same time. -/
def loadBoth : List (List (RegId × LOp)) := [[(0, .register (.useClass 3))], [(0, .register (.useClass 4))]]

theorem loadBoth_alone (i : Nat) : ¬ LWrong (fun _ => libSetting) (lthreads loadBoth i) fun _ => libHome := by
  apply lnot_wrong
  match i with
  | 0 => show laloneB _ [(0, .register (.useClass 3))] _ = true; decide +kernel
  | 1 => show laloneB _ [(0, .register (.useClass 4))] _ = true; decide +kernel
  | _ + 2 => rfl

/-- Both read the end of the list before one of them writes it. -/
theorem loadBoth_lost : (LSys.exec (fun _ => libSetting) (lthreads loadBoth) [0, 1, 0, 1, 0, 1, 0, 1] (LSys.start fun _ => libHome)).map
    (fun S => ((S.mem 0).lists.classes.iterate 9, (S.threads 0).past.length, (S.threads 1).past.length)) = some (some [1, 2, 4], 1, 1) := by decide +kernel

/-- One after the other. -/
theorem loadBoth_right : (LSys.exec (fun _ => libSetting) (lthreads loadBoth) [0, 0, 0, 0, 1, 1, 1, 1] (LSys.start fun _ => libHome)).map
    (fun S => (S.mem 0).lists.classes.iterate 9) = some (some [1, 2, 3, 4]) := by decide +kernel

theorem loadBoth_race : (LSys.exec (fun _ => libSetting) (lthreads loadBoth) [0, 1, 1] (LSys.start fun _ => libHome)).map (lraceB · 0 1) = some true := by decide +kernel

/-- Two threads that register classes in a registry: a class can be lost, although both registrations ended normally. -/
theorem C91_lost : ∃ S, LInterleaves (fun _ => libSetting) (lthreads loadBoth) (LSys.start fun _ => libHome) S ∧ (S.threads 0).past.length = 1 ∧ (S.threads 1).past.length = 1 ∧
    (S.mem 0).lists.classes.iterate 9 = some [1, 2, 4] := by
  obtain ⟨S, hS, he⟩ := Option.map_eq_some_iff.1 loadBoth_lost
  obtain ⟨h1, h2⟩ := Prod.mk.inj he
  obtain ⟨h2, h3⟩ := Prod.mk.inj h2
  exact ⟨S, lexec_reaches .refl hS, h2, h3, h1⟩

theorem C91_shared_refuted : ¬ C91_shared := by
  intro h
  obtain ⟨S, hS, hr⟩ := Option.map_eq_some_iff.1 loadBoth_race
  exact (h _ _ _ _ loadBoth_alone (lexec_reaches .refl hS)).1 (lrace hr)

/-- A library is loaded while the registry is initialized: there is a data race. -/
theorem C91_init_races : ∃ S, LInterleaves (fun _ => libSetting) (lthreads [[(0, .init)], [(0, .register (.useClass 3))]]) (LSys.start fun _ => libHome) S ∧ S.Race := by
  have h : (LSys.exec (fun _ => libSetting) (lthreads [[(0, .init)], [(0, .register (.useClass 3))]]) [0, 1, 1] (LSys.start fun _ => libHome)).map (lraceB · 0 1) = some true := by decide +kernel
  obtain ⟨S, hS, hr⟩ := Option.map_eq_some_iff.1 h
  exact ⟨S, lexec_reaches .refl hS, lrace hr⟩

/-- The error handler is set while a call reports an error: there is a data race. The object has class 9, which is not registered. -/
theorem C91_handler_races : ∃ S, LInterleaves (fun _ => libSetting) (lthreads [[(0, libCall 9)], [(0, .setHandler 6)]]) (LSys.start fun _ => libHome) S ∧ S.Race := by
  have h : ∃ n, (LSys.exec (fun _ => libSetting) (lthreads [[(0, libCall 9)], [(0, .setHandler 6)]]) (List.replicate n 0 ++ [1, 1]) (LSys.start fun _ => libHome)).map (lraceB · 0 1) = some true :=
    ⟨6, by decide +kernel⟩
  obtain ⟨n, h⟩ := h
  obtain ⟨S, hS, hr⟩ := Option.map_eq_some_iff.1 h
  exact ⟨S, lexec_reaches .refl hS, lrace hr⟩

/-! ## The hypotheses are met -/

theorem whileLoading_separate : LSeparate (lthreads whileLoading) := lseparate (by decide +kernel)

theorem whileLoading_alone (i : Nat) : ¬ LWrong (fun _ => libSetting) (lthreads whileLoading i) fun _ => libHome := by
  apply lnot_wrong
  match i with
  | 0 => show laloneB _ [(0, libCall 1), (0, libCall 2)] _ = true; decide +kernel
  | 1 => show laloneB _ [(0, libCall 2)] _ = true; decide +kernel
  | 2 => show laloneB _ [(0, .register (.useClass 3)), (0, .register (.override 7 3))] _ = true; decide +kernel
  | _ + 3 => rfl

example : ∀ i past r op, lthreads whileLoading i past = some (r, op) → (∃ o ho, op = .use o ho) ∨ ∃ e, op = .register e := by
  intro i past r op h
  have hm := List.mem_of_getElem? h
  match i with
  | 0 => rcases List.mem_cons.1 hm with e | hm
         · cases e; exact .inl ⟨_, _, rfl⟩
         · cases List.mem_singleton.1 hm; exact .inl ⟨_, _, rfl⟩
  | 1 => cases List.mem_singleton.1 hm; exact .inl ⟨_, _, rfl⟩
  | 2 => rcases List.mem_cons.1 hm with e | hm
         · cases e; exact .inr ⟨_, rfl⟩
         · cases List.mem_singleton.1 hm; exact .inr ⟨_, rfl⟩
  | _ + 3 => cases hm

/-- The calls and the registrations, interleaved. -/
example : (LSys.exec (fun _ => libSetting) (lthreads whileLoading) ([0, 2, 1, 0, 2, 1, 0, 2, 1, 0, 2, 1, 0, 2, 1, 0, 2, 1, 0, 2, 1, 0, 2, 1] ++ List.replicate 10 0) (LSys.start fun _ => libHome)).map
    (fun S => (lentered S 0, (S.mem 0).lists.classes.iterate 9, ((S.mem 0).lists.overriders 7).iterate 9)) = some ([101, 102], some [1, 2, 3], some [1, 2, 3]) := by decide +kernel

/-- What was loaded is used after `initialize`: the new overrider is entered, for an object of class 3. -/
example : (LSys.exec (fun _ => libSetting) (lthreads [[(0, .register (.useClass 3)), (0, .register (.override 7 3)), (0, .init), (0, libCall 3)]]) (List.replicate 33 0)
    (LSys.start fun _ => libHome)).map (lentered · 0) = some [103] := by decide +kernel

end OpenMethod.Props
