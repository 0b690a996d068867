import Verif.Props.Loading
import Verif.Proof.Locks

/-! # C93: a readers-writer lock for each registry is enough -/

namespace OpenMethod.Props

open Spec Examples

variable {L : RegId → Setting} {strategy : Nat → LStrategy} {mem : RegId → Home} {K : KSys}

/-- C93: any number of threads call methods, load libraries, initialize and finalize registries and set error handlers, and share registries without any restriction. If each registry has a readers-writer lock, which
threads hold in shared mode while they use the registry, and in exclusive mode for other operations, and if operations executed one after the other, in any order, have no undefined behaviour, then: there is no data
race; the results of the threads are those of the same operations executed one after the other, in some order; when no thread is in an operation, the registries are as after them; and as long as a thread has something
to do, one of the threads can continue. -/
theorem C93 (hw : ¬ WrongOrder L strategy mem) (h : KInterleaves L strategy (.start mem) K) :
    ¬ K.sys.Race ∧
    (∃ m, OneByOne L strategy mem (fun i => (K.sys.threads i).past) m ∧ ((∀ i, (K.sys.threads i).cur = none) → K.sys.mem = m)) ∧
    ((∃ i, (K.sys.threads i).cur ≠ none ∨ strategy i (K.sys.threads i).past ≠ none) → ∃ i K', K.step L strategy i = some K') := by
  obtain ⟨m, hk⟩ := kinterleaves_ok hw h
  refine ⟨hk.no_race, ⟨m, hk.seq, fun hidle => ?_⟩, ?_⟩
  · funext r
    cases hl : (K.lock r).writer with
    | none => exact hk.quiet r hl
    | some i =>
      obtain ⟨p, hp⟩ := hk.held r i (.inl hl)
      rw [hidle i] at hp; cases hp
  · rintro ⟨i, hi⟩
    by_cases hb : ∃ j, (K.sys.threads j).cur ≠ none
    · obtain ⟨j, hj⟩ := hb
      exact ⟨j, hk.runs hw hj⟩
    · have hb : ∀ j, (K.sys.threads j).cur = none := fun j => by
        by_contra hj
        exact hb ⟨j, hj⟩
      rcases hi with hi | hi
      · exact absurd (hb i) hi
      · obtain ⟨⟨r, op⟩, ho⟩ := Option.ne_none_iff_exists'.1 hi
        refine ⟨i, ?_⟩
        have hfree : K.lock r = .free := by
          have hw : (K.lock r).writer = none := by
            cases hl : (K.lock r).writer with
            | none => rfl
            | some j =>
              obtain ⟨p, hp⟩ := hk.held r j (.inl hl)
              rw [hb j] at hp; cases hp
          have hr : (K.lock r).readers = [] := by
            cases hl : (K.lock r).readers with
            | nil => rfl
            | cons j l =>
              obtain ⟨p, hp⟩ := hk.held r j (.inr (by rw [hl]; exact List.mem_cons_self))
              rw [hb j] at hp; cases hp
          cases hx : K.lock r with
          | mk rs w =>
            rw [hx] at hw hr
            cases hw; cases hr
            rfl
        unfold KSys.step
        rw [hb i]
        dsimp only
        rw [ho]
        dsimp only
        rw [hfree]
        have : ∃ l, Lock.free.acquire i op.exclusive = some l := by cases op.exclusive <;> exact ⟨_, rfl⟩
        obtain ⟨l, hl⟩ := this
        rw [hl]
        unfold LSys.step LThread.step
        rw [hb i]
        dsimp only
        rw [ho]
        exact ⟨_, rfl⟩

/-! ## Concrete threads -/

def KSys.exec (L : RegId → Setting) (strategy : Nat → LStrategy) : List Nat → KSys → Option KSys
  | [], K => some K
  | i :: is, K => (K.step L strategy i).bind (KSys.exec L strategy is)

theorem kexec_reaches {l : List Nat} {K0 K1 K2 : KSys} (h0 : KInterleaves L strategy K0 K1) (h : KSys.exec L strategy l K1 = some K2) : KInterleaves L strategy K0 K2 := by
  induction l generalizing K1 with
  | nil => obtain rfl := Option.some.inj h; exact h0
  | cons i l ih =>
    obtain ⟨K', h1, h2⟩ := Option.bind_eq_some_iff.1 h
    exact ih (.step h0 h1) h2

/-- A thread calls the method; another one loads a library and initializes the registry. -/
def reloading : List (List (RegId × LOp)) :=
  [[(0, libCall 2), (0, libCall 2)], [(0, .register (.useClass 3)), (0, .register (.override 7 3)), (0, .init), (0, libCall 3)]]

/-- In all orders, the operations have no undefined behaviour. -/
def ordersB (L : RegId → Setting) : Nat → List (List (RegId × LOp)) → (RegId → Home) → Bool
  | 0, l, _ => l.all List.isEmpty
  | n + 1, l, mem => (List.range l.length).all fun i => match (l[i]?).getD [] with
    | [] => true
    | (r, op) :: ops => match op.exec (L r) (mem r) with
      | .ok (_, h) => ordersB L n (l.set i ops) (Function.update mem r h)
      | _ => false

theorem ordersB_exec {n : Nat} {l : List (List (RegId × LOp))} {i : Nat} {r : RegId} {op : LOp} {ops : List (RegId × LOp)} (h : ordersB L n l mem = true) (hl : (l[i]?).getD [] = (r, op) :: ops) :
    ∃ n' o h', op.exec (L r) (mem r) = .ok (o, h') ∧ ordersB L n' (l.set i ops) (Function.update mem r h') = true := by
  have hi : i < l.length := by
    by_contra hn
    rw [List.getElem?_eq_none (by omega)] at hl
    cases hl
  cases n with
  | zero =>
    have := List.all_eq_true.1 h l[i] (List.getElem_mem hi)
    rw [List.getElem?_eq_getElem hi] at hl
    have hl : l[i] = (r, op) :: ops := hl
    rw [hl] at this
    cases this
  | succ n =>
    have := List.all_eq_true.1 h i (List.mem_range.2 hi)
    rw [hl] at this
    dsimp only at this
    split at this
    · rename_i o h' he
      exact ⟨n, o, h', he, this⟩
    · cases this

theorem not_wrongOrder {n : Nat} {l : List (List (RegId × LOp))} (h : ordersB L n l mem = true) : ¬ WrongOrder L (lthreads l) mem := by
  have front : ∀ {l' : List (List (RegId × LOp))} {pasts : Nat → List LResult} {i r op}, (∀ j, (l'[j]?).getD [] = ((l[j]?).getD []).drop (pasts j).length) → lthreads l i (pasts i) = some (r, op) →
      (l'[i]?).getD [] = (r, op) :: ((l[i]?).getD []).drop ((pasts i).length + 1) := by
    intro l' pasts i r op hl ho
    obtain ⟨h1, h2⟩ := List.getElem?_eq_some_iff.1 ho
    rw [hl, List.drop_eq_getElem_cons h1, h2]
  have key : ∀ pasts m, OneByOne L (lthreads l) mem pasts m → ∃ n' l', ordersB L n' l' m = true ∧ ∀ j, (l'[j]?).getD [] = ((l[j]?).getD []).drop (pasts j).length := by
    intro pasts m ha
    induction ha with
    | nil => exact ⟨n, l, h, fun _ => rfl⟩
    | @op pasts m i r op o h _ ho he ih =>
      obtain ⟨n', l', h1, h2⟩ := ih
      have hf := front h2 ho
      obtain ⟨n2, o2, h3, h4, h5⟩ := ordersB_exec h1 hf
      rw [he] at h4
      obtain ⟨rfl, rfl⟩ := Prod.mk.inj (Res.ok.inj h4)
      refine ⟨n2, _, h5, fun j => ?_⟩
      by_cases hj : j = i
      · subst hj
        have hlt : j < l'.length := by
          by_contra hn
          rw [List.getElem?_eq_none (by omega)] at hf
          cases hf
        rw [Function.update_self, List.getElem?_set_self hlt, List.length_append]
        rfl
      · rw [Function.update_of_ne hj, List.getElem?_set_ne (Ne.symm hj)]
        exact h2 j
  rintro ⟨pasts, m, i, r, op, ha, ho, he⟩
  obtain ⟨n', l', h1, h2⟩ := key pasts m ha
  obtain ⟨_, _, _, h3, _⟩ := ordersB_exec h1 (front h2 ho)
  rw [he] at h3
  cases h3

theorem reloading_right : ¬ WrongOrder (fun _ => libSetting) (lthreads reloading) fun _ => libHome := not_wrongOrder (n := 6) (by decide +kernel)

/-- C93 applies to these threads, while C85 and C91 do not. -/
example : ¬ LSeparate (lthreads reloading) := by
  intro h
  exact h 1 0 (by decide) [.registered, .registered] 0 .init rfl [] (libCall 2) rfl .tables (by decide) (by decide)

/-- The second thread has to wait for the first one, or the first one for the second one: without the lock there would be a race. -/
example : (KSys.exec (fun _ => libSetting) (lthreads reloading) (List.replicate 3 0 ++ [1]) (.start fun _ => libHome)).isNone = true ∧
    (KSys.exec (fun _ => libSetting) (lthreads reloading) (List.replicate 3 1 ++ [0]) (.start fun _ => libHome)).isNone = true ∧
    (KSys.exec (fun _ => libSetting) (lthreads reloading) (List.replicate 9 0 ++ List.replicate 33 1 ++ List.replicate 9 0) (.start fun _ => libHome)).map (fun K => (lentered K.sys 0, lentered K.sys 1)) =
      some ([102, 102], [103]) := by decide +kernel

/-- Two calls at the same time. -/
example : (KSys.exec (fun _ => libSetting) (lthreads [[(0, libCall 1)], [(0, libCall 2)]]) [0, 1, 0, 1, 0, 1, 0, 1, 0, 1, 0, 1, 0, 1, 0, 1, 0, 1] (.start fun _ => libHome)).map
    (fun K => (lentered K.sys 0, lentered K.sys 1)) = some ([101], [102]) := by decide +kernel

/-- Two threads register classes at the same time, as in `C91_lost`: with the lock, the second one waits. -/
example : (KSys.exec (fun _ => libSetting) (lthreads loadBoth) [0, 1] (.start fun _ => libHome)).isNone = true ∧
    (KSys.exec (fun _ => libSetting) (lthreads loadBoth) [0, 0, 0, 0, 1, 1, 1, 1] (.start fun _ => libHome)).map (fun K => (K.sys.mem 0).lists.classes.iterate 9) = some (some [1, 2, 3, 4]) := by decide +kernel

end OpenMethod.Props
