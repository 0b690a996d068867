import Verif.SpecLocks
import Verif.Proof.Loading

/-! # Threads that use locks -/

namespace OpenMethod

variable {L : RegId → Setting} {strategy : Nat → LStrategy} {mem m : RegId → Home} {K K' : KSys}

theorem Home.ext_same {a b : Home} (h : ∀ x, a.Same b x) : a = b := by
  have h1 : a.tables = b.tables := h .tables
  have h2 : a.lists = b.lists := h .lists
  have h3 : a.handler = b.handler := h .handler
  cases a; cases b
  cases h1; cases h2; cases h3
  rfl

theorem LOp.alters_shared {op : LOp} (h : op.exclusive = false) (x : LPart) : x ∉ op.alters := by
  cases op with
  | use o ho => exact List.not_mem_nil
  | _ => cases h

/-- The lock that an operation needs is held by its thread. -/
def Lock.Held (l : Lock) (i : Nat) (op : LOp) : Prop :=
  (op.exclusive = true ∧ l.writer = some i) ∨ (op.exclusive = false ∧ i ∈ l.readers)

structure KOk (L : RegId → Setting) (strategy : Nat → LStrategy) (mem : RegId → Home) (K : KSys) (m : RegId → Home) : Prop where
  seq : OneByOne L strategy mem (fun i => (K.sys.threads i).past) m
  quiet : ∀ r, (K.lock r).writer = none → K.sys.mem r = m r
  busy : ∀ i r p, (K.sys.threads i).cur = some (r, p) → ∃ op, strategy i (K.sys.threads i).past = some (r, op) ∧ (op.prog (L r)).run (m r) = p.run (K.sys.mem r) ∧
    p.Within (· ∈ op.uses) (· ∈ op.alters) ∧ (K.lock r).Held i op
  excl : ∀ r i, (K.lock r).writer = some i → (K.lock r).readers = []
  nodup : ∀ r, (K.lock r).readers.Nodup
  held : ∀ r i, (K.lock r).writer = some i ∨ i ∈ (K.lock r).readers → ∃ p, (K.sys.threads i).cur = some (r, p)

theorem kstart_ok : KOk L strategy mem (.start mem) mem where
  seq := .nil
  quiet _ _ := rfl
  busy _ _ _ h := by cases h
  excl _ _ h := by cases h
  nodup _ := List.nodup_nil
  held _ _ h := by rcases h with h | h <;> cases h

/-- Two threads that use a registry at the same time hold its lock in shared mode. -/
theorem Lock.Held.shared {l : Lock} {i j : Nat} {op op' : LOp} (he : ∀ k, l.writer = some k → l.readers = []) (hij : i ≠ j) (h : l.Held i op) (h' : l.Held j op') :
    op.exclusive = false ∧ op'.exclusive = false := by
  rcases h with ⟨-, h⟩ | ⟨h1, h⟩ <;> rcases h' with ⟨-, h'⟩ | ⟨h1', h'⟩
  · rw [h] at h'; exact absurd (Option.some.inj h') hij
  · rw [he _ h] at h'; cases h'
  · rw [he _ h'] at h; cases h
  · exact ⟨h1, h1'⟩

theorem Lock.acquire_eq {l l' : Lock} {i : Nat} {x : Bool} (h : l.acquire i x = some l') : l.writer = none ∧
    ((x = true ∧ l.readers = [] ∧ l' = { readers := [], writer := some i }) ∨ (x = false ∧ l' = { readers := i :: l.readers, writer := none })) := by
  obtain ⟨rs, w⟩ := l
  unfold Lock.acquire at h
  cases w with
  | some k => cases h
  | none =>
    refine ⟨rfl, ?_⟩
    cases x with
    | false => exact .inr ⟨rfl, (Option.some.inj h).symm⟩
    | true =>
      cases rs with
      | nil => exact .inl ⟨rfl, rfl, (Option.some.inj h).symm⟩
      | cons a rs => cases h

theorem pasts_same {S : LSys} {i : Nat} {t : LThread} (h : t.past = (S.threads i).past) :
    (fun j => (Function.update S.threads i t j).past) = fun j => (S.threads j).past := by
  funext j
  by_cases hj : j = i
  · subst hj; rw [Function.update_self, h]
  · rw [Function.update_of_ne hj]

/-- A thread begins an operation. -/
theorem KOk.begin_ok (hk : KOk L strategy mem K m) {i : Nat} {r : RegId} {op : LOp} (hc : (K.sys.threads i).cur = none) (ho : strategy i (K.sys.threads i).past = some (r, op)) {l : Lock}
    (hl : (K.lock r).acquire i op.exclusive = some l) :
    KOk L strategy mem { sys := { mem := K.sys.mem, threads := Function.update K.sys.threads i { past := (K.sys.threads i).past, cur := some (r, op.prog (L r)) } },
                         lock := Function.update K.lock r l } m := by
  obtain ⟨hw, hl⟩ := Lock.acquire_eq hl
  have hno : ∀ r', i ∉ (K.lock r').readers ∧ (K.lock r').writer ≠ some i := by
    refine fun r' => ⟨fun h => ?_, fun h => ?_⟩
    · obtain ⟨p, hp⟩ := hk.held r' i (.inr h)
      rw [hc] at hp; cases hp
    · obtain ⟨p, hp⟩ := hk.held r' i (.inl h)
      rw [hc] at hp; cases hp
  have hi : ∀ j r' p, j ≠ i → (K.sys.threads j).cur = some (r', p) → ∃ op', strategy j (K.sys.threads j).past = some (r', op') ∧ (op'.prog (L r')).run (m r') = p.run (K.sys.mem r') ∧
      p.Within (· ∈ op'.uses) (· ∈ op'.alters) ∧ (Function.update K.lock r l r').Held j op' := by
    intro j r' p hj hp
    obtain ⟨op', h1, h2, h3, h4⟩ := hk.busy j r' p hp
    refine ⟨op', h1, h2, h3, ?_⟩
    by_cases hr : r' = r
    · subst hr
      rw [Function.update_self]
      rcases h4 with ⟨-, h4⟩ | ⟨h5, h4⟩
      · rw [hw] at h4; cases h4
      · rcases hl with ⟨-, hr, rfl⟩ | ⟨-, rfl⟩
        · rw [hr] at h4; cases h4
        · exact .inr ⟨h5, List.mem_cons_of_mem _ h4⟩
    · rw [Function.update_of_ne hr]; exact h4
  refine ⟨?_, fun r' hr' => ?_, fun j r' p hp => ?_, fun r' j hj => ?_, fun r' => ?_, fun r' j hj => ?_⟩
  · dsimp only
    rw [pasts_same (t := { past := (K.sys.threads i).past, cur := some (r, op.prog (L r)) }) rfl]
    exact hk.seq
  · dsimp only at hr' ⊢
    by_cases hr : r' = r
    · subst hr; exact hk.quiet _ hw
    · rw [Function.update_of_ne hr] at hr'; exact hk.quiet _ hr'
  · dsimp only at hp ⊢
    by_cases hj : j = i
    · subst hj
      rw [Function.update_self] at hp ⊢
      obtain ⟨rfl, rfl⟩ := Prod.mk.inj (Option.some.inj hp)
      refine ⟨op, ho, by rw [hk.quiet _ hw], LOp.within _ _ (fun _ h => h) (fun _ h => h), ?_⟩
      rw [Function.update_self]
      rcases hl with ⟨h1, -, rfl⟩ | ⟨h1, rfl⟩
      · exact .inl ⟨h1, rfl⟩
      · exact .inr ⟨h1, List.mem_cons_self⟩
    · rw [Function.update_of_ne hj] at hp ⊢
      exact hi j r' p hj hp
  · dsimp only at hj ⊢
    by_cases hr : r' = r
    · subst hr
      rw [Function.update_self] at hj ⊢
      rcases hl with ⟨-, -, rfl⟩ | ⟨-, rfl⟩
      · rfl
      · cases hj
    · rw [Function.update_of_ne hr] at hj ⊢; exact hk.excl _ _ hj
  · dsimp only
    by_cases hr : r' = r
    · subst hr
      rw [Function.update_self]
      rcases hl with ⟨-, -, rfl⟩ | ⟨-, rfl⟩
      · exact List.nodup_nil
      · exact List.nodup_cons.2 ⟨(hno _).1, hk.nodup _⟩
    · rw [Function.update_of_ne hr]; exact hk.nodup _
  · dsimp only at hj ⊢
    have old : ∀ r', ((K.lock r').writer = some j ∨ j ∈ (K.lock r').readers) → ∃ p, (Function.update K.sys.threads i { past := (K.sys.threads i).past, cur := some (r, op.prog (L r)) } j).cur = some (r', p) := by
      intro r' h
      by_cases hji : j = i
      · subst hji
        rcases h with h | h
        · exact absurd h (hno r').2
        · exact absurd h (hno r').1
      · rw [Function.update_of_ne hji]; exact hk.held _ _ h
    by_cases hr : r' = r
    · subst hr
      rw [Function.update_self] at hj
      have new : j = i → ∃ p, (Function.update K.sys.threads i { past := (K.sys.threads i).past, cur := some (r', op.prog (L r')) } j).cur = some (r', p) := by
        rintro rfl
        exact ⟨_, by rw [Function.update_self]⟩
      rcases hl with ⟨-, -, rfl⟩ | ⟨-, rfl⟩
      · rcases hj with hj | hj
        · exact new (Option.some.inj hj).symm
        · cases hj
      · rcases hj with hj | hj
        · cases hj
        · rcases List.mem_cons.1 hj with hj | hj
          · exact new hj
          · exact old _ (.inr hj)
    · rw [Function.update_of_ne hr] at hj; exact old _ hj

/-- A thread makes an access. -/
theorem KOk.access_ok (hk : KOk L strategy mem K m) {i : Nat} {r : RegId} {p p' : LProg} {h' : Home} (hc : (K.sys.threads i).cur = some (r, p)) (hs : p.step (K.sys.mem r) = some (p', h')) :
    KOk L strategy mem { K with sys := { mem := Function.update K.sys.mem r h', threads := Function.update K.sys.threads i { past := (K.sys.threads i).past, cur := some (r, p') } } } m := by
  obtain ⟨op, ho, hrun, hin, hh⟩ := hk.busy i r p hc
  have hmem : op.exclusive = false → h' = K.sys.mem r := fun he => Home.ext_same fun x => LProg.step_frame hin hs (LOp.alters_shared he x)
  refine ⟨?_, fun r' hr' => ?_, fun j r' q hq => ?_, hk.excl, hk.nodup, fun r' j hj => ?_⟩
  · dsimp only
    rw [pasts_same (t := { past := (K.sys.threads i).past, cur := some (r, p') }) rfl]
    exact hk.seq
  · dsimp only at hr' ⊢
    by_cases hr : r' = r
    · subst hr
      rw [Function.update_self]
      rcases hh with ⟨-, hh⟩ | ⟨he, -⟩
      · rw [hh] at hr'; cases hr'
      · rw [hmem he]; exact hk.quiet _ hr'
    · rw [Function.update_of_ne hr]; exact hk.quiet _ hr'
  · dsimp only at hq ⊢
    by_cases hj : j = i
    · subst hj
      rw [Function.update_self] at hq ⊢
      obtain ⟨rfl, rfl⟩ := Prod.mk.inj (Option.some.inj hq)
      refine ⟨op, ho, ?_, LProg.step_within hin hs, hh⟩
      rw [Function.update_self, hrun]
      exact LProg.step_run hs
    · rw [Function.update_of_ne hj] at hq ⊢
      obtain ⟨op', h1, h2, h3, h4⟩ := hk.busy j r' q hq
      refine ⟨op', h1, ?_, h3, h4⟩
      by_cases hr : r' = r
      · subst hr
        rw [Function.update_self, hmem (Lock.Held.shared (hk.excl r') (Ne.symm hj) hh h4).1]
        exact h2
      · rw [Function.update_of_ne hr]; exact h2
  · dsimp only at hj ⊢
    obtain ⟨q, hq⟩ := hk.held r' j hj
    by_cases hji : j = i
    · subst hji
      rw [hc] at hq
      obtain ⟨rfl, -⟩ := Prod.mk.inj (Option.some.inj hq)
      exact ⟨p', by rw [Function.update_self]⟩
    · exact ⟨q, by rw [Function.update_of_ne hji]; exact hq⟩

/-- A thread ends an operation. -/
theorem KOk.end_ok (hw : ¬ WrongOrder L strategy mem) (hk : KOk L strategy mem K m) {i : Nat} {r : RegId} {o : LResult} (hc : (K.sys.threads i).cur = some (r, .done o)) :
    KOk L strategy mem { sys := { mem := K.sys.mem, threads := Function.update K.sys.threads i { past := (K.sys.threads i).past ++ [o], cur := none } },
                         lock := Function.update K.lock r ((K.lock r).release i) } (Function.update m r (K.sys.mem r)) := by
  obtain ⟨op, ho, hrun, hin, hh⟩ := hk.busy i r _ hc
  have hex : op.exec (L r) (m r) = .ok (o, K.sys.mem r) := by
    cases hx : op.exec (L r) (m r) with
    | ok x =>
      have h1 := LOp.run_exec (o := x.1) (h' := x.2) hx
      rw [hrun] at h1
      exact congrArg Res.ok (Option.some.inj h1).symm
    | err e => exact absurd hx (LOp.exec_ne_err _ _)
    | ub => exact absurd ⟨_, _, _, _, _, hk.seq, ho, hx⟩ hw
  have hsh : op.exclusive = false → K.sys.mem r = m r := by
    intro he
    rcases hh with ⟨h1, -⟩ | ⟨-, h1⟩
    · rw [he] at h1; cases h1
    · cases hq : (K.lock r).writer with
      | none => exact hk.quiet _ hq
      | some k => rw [hk.excl _ _ hq] at h1; cases h1
  have hother : ∀ j r' q, j ≠ i → (K.sys.threads j).cur = some (r', q) → r' = r → op.exclusive = false := by
    rintro j r' q hj hq rfl
    obtain ⟨op', -, -, -, h4⟩ := hk.busy j r' q hq
    exact (Lock.Held.shared (hk.excl r') (Ne.symm hj) hh h4).1
  have hrel : ∀ j, ((K.lock r).release i).writer = some j ∨ j ∈ ((K.lock r).release i).readers → j ≠ i ∧ ((K.lock r).writer = some j ∨ j ∈ (K.lock r).readers) := by
    intro j hj
    unfold Lock.release at hj
    split at hj
    · rename_i hwi
      rcases hj with hj | hj
      · cases hj
      · have : j ∈ (K.lock r).readers := hj
        rw [hk.excl _ _ hwi] at this; cases this
    · rename_i hwi
      rcases hj with hj | hj
      · exact ⟨by rintro rfl; exact hwi hj, .inl hj⟩
      · have := (List.Nodup.mem_erase_iff (hk.nodup r)).1 hj
        exact ⟨this.1, .inr this.2⟩
  refine ⟨?_, fun r' hr' => ?_, fun j r' q hq => ?_, fun r' j hj => ?_, fun r' => ?_, fun r' j hj => ?_⟩
  · dsimp only
    have : (fun j => (Function.update K.sys.threads i { past := (K.sys.threads i).past ++ [o], cur := none } j).past) =
        Function.update (fun j => (K.sys.threads j).past) i ((K.sys.threads i).past ++ [o]) := by
      funext j
      by_cases hj : j = i
      · subst hj; rw [Function.update_self, Function.update_self]
      · rw [Function.update_of_ne hj, Function.update_of_ne hj]
    rw [this]
    exact .op hk.seq ho hex
  · dsimp only at hr' ⊢
    by_cases hr : r' = r
    · subst hr; rw [Function.update_self]
    · rw [Function.update_of_ne hr] at hr' ⊢; exact hk.quiet _ hr'
  · dsimp only at hq ⊢
    by_cases hj : j = i
    · subst hj
      rw [Function.update_self] at hq
      cases hq
    · rw [Function.update_of_ne hj] at hq ⊢
      obtain ⟨op', h1, h2, h3, h4⟩ := hk.busy j r' q hq
      refine ⟨op', h1, ?_, h3, ?_⟩
      · by_cases hr : r' = r
        · have he := hother j r' q hj hq hr
          subst hr
          rw [Function.update_self]
          rw [← hsh he] at h2
          exact h2
        · rw [Function.update_of_ne hr]; exact h2
      · by_cases hr : r' = r
        · have he := hother j r' q hj hq hr
          subst hr
          rw [Function.update_self]
          have h5 := (Lock.Held.shared (hk.excl r') (Ne.symm hj) hh h4).2
          rcases h4 with ⟨h6, -⟩ | ⟨-, h4⟩
          · rw [h5] at h6; cases h6
          · refine .inr ⟨h5, ?_⟩
            unfold Lock.release
            split
            · exact h4
            · exact (List.mem_erase_of_ne hj).2 h4
        · rw [Function.update_of_ne hr]; exact h4
  · dsimp only at hj ⊢
    by_cases hr : r' = r
    · subst hr
      rw [Function.update_self] at hj ⊢
      unfold Lock.release at hj ⊢
      split at hj
      · cases hj
      · rename_i hwi
        rw [if_neg hwi]
        show (K.lock r').readers.erase i = []
        rw [hk.excl _ _ hj]; rfl
    · rw [Function.update_of_ne hr] at hj ⊢; exact hk.excl _ _ hj
  · dsimp only
    by_cases hr : r' = r
    · subst hr
      rw [Function.update_self]
      unfold Lock.release
      split
      · exact hk.nodup _
      · exact (hk.nodup r').erase _
    · rw [Function.update_of_ne hr]; exact hk.nodup _
  · dsimp only at hj ⊢
    by_cases hr : r' = r
    · subst hr
      rw [Function.update_self] at hj
      obtain ⟨hji, hj⟩ := hrel j hj
      rw [Function.update_of_ne hji]
      exact hk.held _ _ hj
    · rw [Function.update_of_ne hr] at hj
      obtain ⟨q, hq⟩ := hk.held _ _ hj
      have hji : j ≠ i := by
        rintro rfl
        rw [hc] at hq
        exact hr (Prod.mk.inj (Option.some.inj hq)).1.symm
      rw [Function.update_of_ne hji]
      exact ⟨q, hq⟩

theorem kstep_ok (hw : ¬ WrongOrder L strategy mem) (hk : KOk L strategy mem K m) {i : Nat} (hs : K.step L strategy i = some K') : ∃ m', KOk L strategy mem K' m' := by
  unfold KSys.step at hs
  split at hs
  · rename_i hc
    split at hs
    · cases hs
    · rename_i r op ho
      obtain ⟨l, hl, hs⟩ := Option.bind_eq_some_iff.1 hs
      obtain ⟨S, hS, rfl⟩ := Option.map_eq_some_iff.1 hs
      unfold LSys.step LThread.step at hS
      rw [hc] at hS
      dsimp only at hS
      rw [ho] at hS
      obtain rfl := Option.some.inj hS
      exact ⟨m, hk.begin_ok hc ho hl⟩
  · rename_i r o hc
    obtain ⟨S, hS, rfl⟩ := Option.map_eq_some_iff.1 hs
    unfold LSys.step LThread.step at hS
    rw [hc] at hS
    obtain rfl := Option.some.inj hS
    exact ⟨_, hk.end_ok hw hc⟩
  · rename_i x hnd hc
    obtain ⟨r, p⟩ := x
    obtain ⟨S, hS, rfl⟩ := Option.map_eq_some_iff.1 hs
    have hp : ∃ p' h', p.step (K.sys.mem r) = some (p', h') ∧ S = { mem := Function.update K.sys.mem r h', threads := Function.update K.sys.threads i { past := (K.sys.threads i).past, cur := some (r, p') } } := by
      unfold LSys.step LThread.step at hS
      rw [hc] at hS
      split at hS
      · rename_i h; cases h
      · rename_i r' o h
        obtain ⟨rfl, rfl⟩ := Prod.mk.inj (Option.some.inj h)
        exact absurd rfl (hnd _ _)
      · rename_i r' p' h
        obtain ⟨rfl, rfl⟩ := Prod.mk.inj (Option.some.inj h)
        obtain ⟨y, hy, rfl⟩ := Option.map_eq_some_iff.1 hS
        obtain ⟨⟨q, h'⟩, hq, rfl⟩ := Option.map_eq_some_iff.1 hy
        exact ⟨q, h', hq, rfl⟩
    obtain ⟨p', h', hq, rfl⟩ := hp
    exact ⟨m, hk.access_ok hc hq⟩

theorem kinterleaves_ok (hw : ¬ WrongOrder L strategy mem) (h : KInterleaves L strategy (.start mem) K) : ∃ m, KOk L strategy mem K m := by
  induction h with
  | refl => exact ⟨mem, kstart_ok⟩
  | step _ hs ih =>
    obtain ⟨m, hk⟩ := ih
    exact kstep_ok hw hk hs

theorem KOk.no_race (hk : KOk L strategy mem K m) : ¬ K.sys.Race := by
  rintro ⟨i, j, r, p, q, x, hij, hp, hq, hc, -⟩
  obtain ⟨op, -, -, hin, h4⟩ := hk.busy i r p hp
  obtain ⟨op', -, -, -, h4'⟩ := hk.busy j r q hq
  exact LOp.alters_shared (Lock.Held.shared (hk.excl r) hij h4 h4').1 x (LProg.changes_within hin hc).2

theorem KOk.not_stuck (hw : ¬ WrongOrder L strategy mem) (hk : KOk L strategy mem K m) {i : Nat} {r : RegId} : (K.sys.threads i).cur ≠ some (r, .stuck) := by
  intro hc
  obtain ⟨op, ho, hr, -, -⟩ := hk.busy i r _ hc
  cases hx : op.exec (L r) (m r) with
  | ok x =>
    have h1 := LOp.run_exec (o := x.1) (h' := x.2) hx
    rw [hr] at h1
    cases h1
  | err e => exact absurd hx (LOp.exec_ne_err _ _)
  | ub => exact absurd ⟨_, _, _, _, _, hk.seq, ho, hx⟩ hw

theorem LProg.step_isSome {p : LProg} (h : Home) (h1 : p ≠ .stuck) (h2 : ∀ o, p ≠ .done o) : ∃ x, p.step h = some x := by
  cases p with
  | done o => exact absurd rfl (h2 o)
  | stuck => exact absurd rfl h1
  | tables q =>
    cases q with
    | done x =>
      cases x with
      | ok o =>
        unfold LProg.step
        dsimp only
        split <;> exact ⟨_, rfl⟩
      | err e => exact ⟨_, rfl⟩
      | ub => exact ⟨_, rfl⟩
    | load l k => exact ⟨_, rfl⟩
    | inspect k => exact ⟨_, rfl⟩
    | write w k => exact ⟨_, rfl⟩
  | lists k => exact ⟨_, rfl⟩
  | link l k => exact ⟨_, rfl⟩
  | handler k => exact ⟨_, rfl⟩
  | install f k => exact ⟨_, rfl⟩

/-- A thread that has begun an operation does not wait. -/
theorem KOk.runs (hw : ¬ WrongOrder L strategy mem) (hk : KOk L strategy mem K m) {i : Nat} (h : (K.sys.threads i).cur ≠ none) : ∃ K', K.step L strategy i = some K' := by
  cases hc : (K.sys.threads i).cur with
  | none => exact absurd hc h
  | some x =>
    obtain ⟨r, p⟩ := x
    by_cases hd : ∃ o, p = .done o
    · obtain ⟨o, rfl⟩ := hd
      unfold KSys.step LSys.step LThread.step
      rw [hc]
      exact ⟨_, rfl⟩
    · have hd : ∀ o, p ≠ .done o := fun o e => hd ⟨o, e⟩
      obtain ⟨⟨p', h'⟩, hp⟩ := LProg.step_isSome (K.sys.mem r) (fun e => hk.not_stuck hw (by rw [hc, e])) hd
      unfold KSys.step LSys.step LThread.step
      rw [hc]
      cases p with
      | done o => exact absurd rfl (hd o)
      | _ => dsimp only; rw [hp]; exact ⟨_, rfl⟩

end OpenMethod
