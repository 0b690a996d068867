import Verif.Proof.Select

/-! # The elimination by return types (option `n2216`) on lists without holes -/

namespace OpenMethod

/-- Change of the value of a result. -/
def Res.map {α β : Type} (f : α → β) : Res α → Res β
  | .ok a => .ok (f a)
  | .err e => .err e
  | .ub => .ub

@[simp] theorem Res.map_ok {α β : Type} (f : α → β) (a : α) : Res.map f (.ok a) = .ok (f a) := rfl
@[simp] theorem Res.map_err {α β : Type} (f : α → β) (e : Err) : Res.map f (.err e) = .err e := rfl
@[simp] theorem Res.map_ub {α β : Type} (f : α → β) : Res.map f .ub = .ub := rfl

theorem Res.map_eq_ok {α β : Type} {f : α → β} {x : Res α} {b : β} : Res.map f x = .ok b ↔ ∃ a, x = .ok a ∧ f a = b := by
  cases x <;> simp

theorem Res.map_eq_ub {α β : Type} {f : α → β} {x : Res α} : Res.map f x = .ub ↔ x = .ub := by
  cases x <;> simp

/-- Candidate `a` against the candidates after it. `der x y`: `x` is `y` or derives from it. -/
def sweepRetL {α : Type} (ret : α → Option Cls) (der : Cls → Cls → Bool) : Option α → List α → Res (Option α × List α)
  | a, [] => .ok (a, [])
  | a, b :: r => do
    let i ← Res.ofOption a
    let ri ← Res.ofOption (ret i)
    let rj ← Res.ofOption (ret b)
    if der rj ri then do
      let s ← sweepRetL ret der none r
      return (s.1, b :: s.2)
    else if der ri rj then sweepRetL ret der a r
    else do
      let s ← sweepRetL ret der a r
      return (s.1, b :: s.2)

/-- Elimination by return types. -/
def elimRetL {α : Type} (ret : α → Option Cls) (der : Cls → Cls → Bool) : Nat → List α → Res (List α)
  | n + 1, a :: r => do
    let s ← sweepRetL ret der (some a) r
    let l ← elimRetL ret der n s.2
    return s.1.toList ++ l
  | _, l => .ok l

/-- The overriders that remain after both eliminations, given those that remain after the first. -/
def remainL {α : Type} (n2216 : Bool) (ret : α → Option Cls) (der : Cls → Cls → Bool) (surv : List α) : Res (List α) :=
  if surv.length ≤ 1 then .ok surv
  else if n2216 then
    if (surv.getLast?.bind ret).isNone then .ok surv else elimRetL ret der surv.length surv
  else .ok surv

theorem remainL_false {α : Type} (ret : α → Option Cls) (der : Cls → Cls → Bool) (surv : List α) :
    remainL false ret der surv = .ok surv := by
  unfold remainL; simp

/-! ## Correspondence with the code -/

/-- `is_base_of` on `transitive_derived`. -/
def derOf (td : Cls → List Cls) (x y : Cls) : Bool := decide (x ∈ td y)

theorem alive_sweepRet (ret : Nat → Option Cls) (td : Cls → List Cls) (a : Option Nat) (r : List (Option Nat)) :
    sweepRetL ret (derOf td) a (alive r) = Res.map (fun s => (s.1, alive s.2)) (sweepRet ret td a r) := by
  induction r generalizing a with
  | nil => rfl
  | cons o r ih =>
    cases o with
    | none =>
      rw [alive_none, ih, sweepRet]
      cases sweepRet ret td a r <;> rfl
    | some b =>
      rw [alive_some, sweepRet, sweepRetL]
      cases a with
      | none => rfl
      | some i =>
        simp only [Res.ofOption_some, Res.ok_bind]
        cases ret i with
        | none => rfl
        | some ri =>
          simp only [Res.ofOption_some, Res.ok_bind]
          cases ret b with
          | none => rfl
          | some rj =>
            simp only [Res.ofOption_some, Res.ok_bind, derOf, decide_eq_true_eq]
            have ih1 := ih none
            have ih2 := ih (some i)
            by_cases h1 : rj ∈ td ri
            · rw [if_pos h1, if_pos h1]
              unfold derOf at *
              rw [ih1]
              cases sweepRet ret td none r <;> rfl
            · rw [if_neg h1, if_neg h1]
              unfold derOf at *
              by_cases h2 : ri ∈ td rj
              · rw [if_pos h2, if_pos h2, ih2]
                cases sweepRet ret td (some i) r <;> rfl
              · rw [if_neg h2, if_neg h2, ih2]
                cases sweepRet ret td (some i) r <;> rfl

theorem sweepRet_elim (ret : Nat → Option Cls) (td : Cls → List Cls) (a : Option Nat) (r : List (Option Nat))
    {s : Option Nat × List (Option Nat)} (h : sweepRet ret td a r = .ok s) : Elim r s.2 ∧ (s.1 = a ∨ s.1 = none) := by
  induction r generalizing a s with
  | nil =>
    simp only [sweepRet, Res.ok.injEq] at h
    subst h
    exact ⟨.nil, .inl rfl⟩
  | cons o r ih =>
    cases o with
    | none =>
      simp only [sweepRet, Res.bind_eq_ok, Res.pure_eq, Res.ok.injEq] at h
      obtain ⟨s', hs', rfl⟩ := h
      exact ⟨.cons (.inl rfl) (ih a hs').1, (ih a hs').2⟩
    | some b =>
      simp only [sweepRet, Res.bind_eq_ok, Res.ofOption_eq_ok] at h
      obtain ⟨i, rfl, ri, _, rj, _, h⟩ := h
      split at h
      · simp only [Res.bind_eq_ok, Res.pure_eq, Res.ok.injEq] at h
        obtain ⟨s', hs', rfl⟩ := h
        exact ⟨.cons (.inl rfl) (ih _ hs').1, .inr (by rcases (ih _ hs').2 with h | h <;> exact h)⟩
      · split at h <;>
        · simp only [Res.bind_eq_ok, Res.pure_eq, Res.ok.injEq] at h
          obtain ⟨s', hs', rfl⟩ := h
          exact ⟨.cons (by simp) (ih _ hs').1, (ih _ hs').2⟩

theorem sweepRetL_length {α : Type} (ret : α → Option Cls) (der : Cls → Cls → Bool) (a : Option α) (l : List α)
    {s : Option α × List α} (h : sweepRetL ret der a l = .ok s) : s.2.length ≤ l.length := by
  induction l generalizing a s with
  | nil =>
    simp only [sweepRetL, Res.ok.injEq] at h
    subst h; simp
  | cons b r ih =>
    simp only [sweepRetL, Res.bind_eq_ok, Res.ofOption_eq_ok] at h
    obtain ⟨i, rfl, ri, _, rj, _, h⟩ := h
    split at h
    · simp only [Res.bind_eq_ok, Res.pure_eq, Res.ok.injEq] at h
      obtain ⟨s', hs', rfl⟩ := h
      simpa using ih _ hs'
    · split at h
      · have := ih _ h
        simp only [List.length_cons]; omega
      · simp only [Res.bind_eq_ok, Res.pure_eq, Res.ok.injEq] at h
        obtain ⟨s', hs', rfl⟩ := h
        simpa using ih _ hs'

/-- The number of iterations does not matter when it is sufficient. -/
theorem elimRetL_fuel {α : Type} (ret : α → Option Cls) (der : Cls → Cls → Bool) (n m : Nat) (l : List α) (hn : l.length ≤ n)
    (hm : l.length ≤ m) : elimRetL ret der n l = elimRetL ret der m l := by
  induction n generalizing m l with
  | zero =>
    obtain rfl : l = [] := List.eq_nil_of_length_eq_zero (by omega)
    cases m <;> rfl
  | succ n ih =>
    cases l with
    | nil => cases m <;> rfl
    | cons a r =>
      simp only [List.length_cons] at hn hm
      obtain ⟨m, rfl⟩ : ∃ k, m = k + 1 := ⟨m - 1, by omega⟩
      unfold elimRetL
      cases hs : sweepRetL ret der (some a) r with
      | ok s =>
        have hl := sweepRetL_length ret der _ _ hs
        simp only [Res.ok_bind]
        rw [ih m s.2 (by omega) (by omega)]
      | err e => rfl
      | ub => rfl

theorem alive_eliminateRet (ret : Nat → Option Cls) (td : Cls → List Cls) (n : Nat) (l : List (Option Nat)) (h : l.length ≤ n) :
    elimRetL ret (derOf td) n (alive l) = Res.map alive (eliminateRet ret td n l) := by
  induction n generalizing l with
  | zero =>
    obtain rfl : l = [] := List.eq_nil_of_length_eq_zero (by omega)
    rfl
  | succ n ih =>
    cases l with
    | nil => rfl
    | cons o r =>
      simp only [List.length_cons] at h
      cases o with
      | none =>
        have hle : (alive r).length ≤ r.length := by unfold alive; exact List.length_filterMap_le _ _
        rw [alive_none, elimRetL_fuel ret (derOf td) (n + 1) n (alive r) (by omega) (by omega), ih r (by omega), eliminateRet]
        cases eliminateRet ret td n r <;> rfl
      | some a =>
        rw [alive_some, elimRetL, alive_sweepRet, eliminateRet]
        cases hs : sweepRet ret td (some a) r with
        | err e => rfl
        | ub => rfl
        | ok s =>
          have hl := (sweepRet_elim ret td (some a) r hs).1.length
          simp only [Res.map_ok, Res.ok_bind]
          rw [ih s.2 (by omega)]
          cases eliminateRet ret td n s.2 with
          | err e => rfl
          | ub => rfl
          | ok l' =>
            simp only [Res.map_ok, Res.ok_bind, Res.pure_eq, Res.ok.injEq]
            cases s.1 <;> rfl

theorem eliminateRet_elim (ret : Nat → Option Cls) (td : Cls → List Cls) (n : Nat) (l : List (Option Nat))
    {l' : List (Option Nat)} (h : eliminateRet ret td n l = .ok l') : Elim l l' := by
  induction n generalizing l l' with
  | zero =>
    cases l with
    | nil => simp only [eliminateRet, Res.ok.injEq] at h; subst h; exact .nil
    | cons o r => simp only [eliminateRet, Res.ok.injEq] at h; subst h; exact .refl _
  | succ n ih =>
    cases l with
    | nil => simp only [eliminateRet, Res.ok.injEq] at h; subst h; exact .nil
    | cons o r =>
      cases o with
      | none =>
        simp only [eliminateRet, Res.bind_eq_ok, Res.pure_eq, Res.ok.injEq] at h
        obtain ⟨l1, h1, rfl⟩ := h
        exact .cons (.inl rfl) (ih r h1)
      | some a =>
        simp only [eliminateRet, Res.bind_eq_ok, Res.pure_eq, Res.ok.injEq] at h
        obtain ⟨s, hs, l1, h1, rfl⟩ := h
        obtain ⟨he, hh⟩ := sweepRet_elim ret td (some a) r hs
        exact .cons hh (he.trans (ih _ h1))

theorem sweepRet_no_err (ret : Nat → Option Cls) (td : Cls → List Cls) (a : Option Nat) (r : List (Option Nat)) (e : Err) :
    sweepRet ret td a r ≠ .err e := by
  induction r generalizing a with
  | nil => simp [sweepRet]
  | cons o r ih =>
    cases o with
    | none => simp [sweepRet, Res.bind_eq_err, ih]
    | some b =>
      rw [sweepRet]
      cases a with
      | none => simp
      | some i =>
        simp only [Res.ofOption_some, Res.ok_bind]
        cases ret i with
        | none => simp
        | some ri =>
          simp only [Res.ofOption_some, Res.ok_bind]
          cases ret b with
          | none => simp
          | some rj =>
            simp only [Res.ofOption_some, Res.ok_bind]
            split
            · simp [Res.bind_eq_err, ih]
            · split <;> simp [Res.bind_eq_err, ih]

theorem eliminateRet_no_err (ret : Nat → Option Cls) (td : Cls → List Cls) (n : Nat) (l : List (Option Nat)) (e : Err) :
    eliminateRet ret td n l ≠ .err e := by
  induction n generalizing l with
  | zero => cases l <;> simp [eliminateRet]
  | succ n ih =>
    cases l with
    | nil => simp [eliminateRet]
    | cons o r =>
      cases o with
      | none => simp [eliminateRet, Res.bind_eq_err, ih]
      | some a => simp [eliminateRet, Res.bind_eq_err, ih, sweepRet_no_err]

/-- Return types eliminate some candidates, never all. -/
theorem sweepRetL_nonempty {α : Type} (ret : α → Option Cls) (der : Cls → Cls → Bool) (a : Option α) (l : List α)
    {s : Option α × List α} (h : sweepRetL ret der a l = .ok s) : s.1 = a ∨ s.2 ≠ [] := by
  induction l generalizing a s with
  | nil =>
    simp only [sweepRetL, Res.ok.injEq] at h
    subst h; exact .inl rfl
  | cons b r ih =>
    simp only [sweepRetL, Res.bind_eq_ok, Res.ofOption_eq_ok] at h
    obtain ⟨i, rfl, ri, _, rj, _, h⟩ := h
    split at h
    · simp only [Res.bind_eq_ok, Res.pure_eq, Res.ok.injEq] at h
      obtain ⟨s', hs', rfl⟩ := h
      exact .inr (by simp)
    · split at h
      · exact ih _ h
      · simp only [Res.bind_eq_ok, Res.pure_eq, Res.ok.injEq] at h
        obtain ⟨s', hs', rfl⟩ := h
        exact .inr (by simp)

theorem elimRetL_nonempty {α : Type} (ret : α → Option Cls) (der : Cls → Cls → Bool) (n : Nat) (l : List α) {l' : List α}
    (h : elimRetL ret der n l = .ok l') (hne : l ≠ []) : l' ≠ [] := by
  induction n generalizing l l' with
  | zero =>
    cases l with
    | nil => exact absurd rfl hne
    | cons a r => simp only [elimRetL, Res.ok.injEq] at h; subst h; simp
  | succ n ih =>
    cases l with
    | nil => exact absurd rfl hne
    | cons a r =>
      simp only [elimRetL, Res.bind_eq_ok, Res.pure_eq, Res.ok.injEq] at h
      obtain ⟨s, hs, l1, h1, rfl⟩ := h
      rcases sweepRetL_nonempty ret der _ _ hs with h | h
      · rw [h]; simp
      · have := ih _ h1 h
        simp [this]

theorem sweepRetL_sublist {α : Type} (ret : α → Option Cls) (der : Cls → Cls → Bool) (a : Option α) (l : List α)
    {s : Option α × List α} (h : sweepRetL ret der a l = .ok s) : s.2.Sublist l ∧ (s.1 = a ∨ s.1 = none) := by
  induction l generalizing a s with
  | nil =>
    simp only [sweepRetL, Res.ok.injEq] at h
    subst h; exact ⟨.slnil, .inl rfl⟩
  | cons b r ih =>
    simp only [sweepRetL, Res.bind_eq_ok, Res.ofOption_eq_ok] at h
    obtain ⟨i, rfl, ri, _, rj, _, h⟩ := h
    split at h
    · simp only [Res.bind_eq_ok, Res.pure_eq, Res.ok.injEq] at h
      obtain ⟨s', hs', rfl⟩ := h
      exact ⟨(ih _ hs').1.cons_cons b, .inr (by rcases (ih _ hs').2 with h | h <;> exact h)⟩
    · split at h
      · exact ⟨(ih _ h).1.cons b, (ih _ h).2⟩
      · simp only [Res.bind_eq_ok, Res.pure_eq, Res.ok.injEq] at h
        obtain ⟨s', hs', rfl⟩ := h
        exact ⟨(ih _ hs').1.cons_cons b, (ih _ hs').2⟩

theorem elimRetL_sublist {α : Type} (ret : α → Option Cls) (der : Cls → Cls → Bool) (n : Nat) (l : List α) {l' : List α}
    (h : elimRetL ret der n l = .ok l') : l'.Sublist l := by
  induction n generalizing l l' with
  | zero => cases l <;> (simp only [elimRetL, Res.ok.injEq] at h; subst h; exact .refl _)
  | succ n ih =>
    cases l with
    | nil => simp only [elimRetL, Res.ok.injEq] at h; subst h; exact .refl _
    | cons a r =>
      simp only [elimRetL, Res.bind_eq_ok, Res.pure_eq, Res.ok.injEq] at h
      obtain ⟨s, hs, l1, h1, rfl⟩ := h
      obtain ⟨h2, h3⟩ := sweepRetL_sublist ret der _ _ hs
      have h4 := (ih _ h1).trans h2
      rcases h3 with h3 | h3
      · rw [h3]; exact h4.cons_cons a
      · rw [h3]; exact h4.cons a

theorem remainL_nonempty {α : Type} {n2216 : Bool} {ret : α → Option Cls} {der : Cls → Cls → Bool} {surv l : List α}
    (h : remainL n2216 ret der surv = .ok l) (hne : surv ≠ []) : l ≠ [] := by
  unfold remainL at h
  split at h
  · obtain rfl := Res.ok.inj h; exact hne
  · split at h
    · split at h
      · obtain rfl := Res.ok.inj h; exact hne
      · exact elimRetL_nonempty ret der _ _ h hne
    · obtain rfl := Res.ok.inj h; exact hne

theorem remainL_sublist {α : Type} {n2216 : Bool} {ret : α → Option Cls} {der : Cls → Cls → Bool} {surv l : List α}
    (h : remainL n2216 ret der surv = .ok l) : l.Sublist surv := by
  unfold remainL at h
  split at h
  · obtain rfl := Res.ok.inj h; exact .refl _
  · split at h
    · split at h
      · obtain rfl := Res.ok.inj h; exact .refl _
      · exact elimRetL_sublist ret der _ _ h
    · obtain rfl := Res.ok.inj h; exact .refl _

/-! ## Renaming -/

theorem sweepRetL_map {α β : Type} (f : α → β) (ret : α → Option Cls) (ret' : β → Option Cls) (der der' : Cls → Cls → Bool)
    (a : Option α) (l : List α) (hr : ∀ x ∈ a.toList ++ l, ret' (f x) = ret x)
    (hd : ∀ x ∈ a.toList ++ l, ∀ y ∈ a.toList ++ l, ∀ c d, ret x = some c → ret y = some d → der' c d = der c d) :
    sweepRetL ret' der' (a.map f) (l.map f) = Res.map (fun s => (s.1.map f, s.2.map f)) (sweepRetL ret der a l) := by
  induction l generalizing a with
  | nil => rfl
  | cons b r ih =>
    rw [List.map_cons, sweepRetL, sweepRetL]
    cases a with
    | none => rfl
    | some i =>
      simp only [Option.toList_some, List.singleton_append] at hr hd
      simp only [Option.map_some, Res.ofOption_some, Res.ok_bind]
      rw [hr i (by simp), hr b (by simp)]
      cases hi : ret i with
      | none => rfl
      | some ri =>
        cases hb : ret b with
        | none => rfl
        | some rj =>
          simp only [Res.ofOption_some, Res.ok_bind]
          rw [hd b (by simp) i (by simp) rj ri hb hi, hd i (by simp) b (by simp) ri rj hi hb]
          have ih1 := ih none (fun x hx => hr x (by simp at hx ⊢; tauto))
            (fun x hx y hy => hd x (by simp at hx ⊢; tauto) y (by simp at hy ⊢; tauto))
          have ih2 := ih (some i) (fun x hx => hr x (by simp at hx ⊢; tauto))
            (fun x hx y hy => hd x (by simp at hx ⊢; tauto) y (by simp at hy ⊢; tauto))
          simp only [Option.map_none, Option.map_some] at ih1 ih2
          split
          · rw [ih1]
            cases sweepRetL ret der none r <;> rfl
          · split
            · exact ih2
            · rw [ih2]
              cases sweepRetL ret der (some i) r <;> rfl

theorem elimRetL_map {α β : Type} (f : α → β) (ret : α → Option Cls) (ret' : β → Option Cls) (der der' : Cls → Cls → Bool)
    (n : Nat) (l : List α) (hr : ∀ x ∈ l, ret' (f x) = ret x)
    (hd : ∀ x ∈ l, ∀ y ∈ l, ∀ c d, ret x = some c → ret y = some d → der' c d = der c d) :
    elimRetL ret' der' n (l.map f) = Res.map (List.map f) (elimRetL ret der n l) := by
  induction n generalizing l with
  | zero => cases l <;> rfl
  | succ n ih =>
    cases l with
    | nil => rfl
    | cons a r =>
      rw [List.map_cons, elimRetL, elimRetL]
      have h1 := sweepRetL_map f ret ret' der der' (some a) r hr hd
      rw [Option.map_some] at h1
      rw [h1]
      cases hs : sweepRetL ret der (some a) r with
      | err e => rfl
      | ub => rfl
      | ok s =>
        simp only [Res.map_ok, Res.ok_bind]
        have hsub := (sweepRetL_sublist ret der _ _ hs).1
        rw [ih s.2 (fun x hx => hr x (by simp [hsub.subset hx]))
          (fun x hx y hy => hd x (by simp [hsub.subset hx]) y (by simp [hsub.subset hy]))]
        cases elimRetL ret der n s.2 with
        | err e => rfl
        | ub => rfl
        | ok l' =>
          simp only [Res.map_ok, Res.ok_bind, Res.pure_eq, List.map_append, Res.ok.injEq]
          cases s.1 <;> rfl

theorem remainL_map {α β : Type} (n2216 : Bool) (f : α → β) (ret : α → Option Cls) (ret' : β → Option Cls)
    (der der' : Cls → Cls → Bool) (l : List α) (hr : ∀ x ∈ l, ret' (f x) = ret x)
    (hd : ∀ x ∈ l, ∀ y ∈ l, ∀ c d, ret x = some c → ret y = some d → der' c d = der c d) :
    remainL n2216 ret' der' (l.map f) = Res.map (List.map f) (remainL n2216 ret der l) := by
  unfold remainL
  rw [List.length_map]
  split
  · rfl
  · split
    · have hlast : ((l.map f).getLast?.bind ret') = l.getLast?.bind ret := by
        rw [List.getLast?_map]
        cases hl : l.getLast? with
        | none => rfl
        | some x => exact hr x (List.mem_of_getLast? hl)
      rw [hlast]
      split
      · rfl
      · exact elimRetL_map f ret ret' der der' _ l hr hd
    · rfl

/-! ## Selection, with or without the option -/

theorem pickOf_last (l : List (Option Nat)) (h : alive l ≠ []) : l[pickOf l]?.join = (alive l).getLast? := by
  have key := foldl_inv_prefix
    (fun (pre : List (Option Nat × Nat)) (p : Nat) =>
      (alive (pre.map (·.1)) = [] ∨ ∃ x, (some x, p) ∈ pre ∧ (alive (pre.map (·.1))).getLast? = some x))
    (fun p x => if x.1.isSome then x.2 else p) l.zipIdx 0 (.inl rfl) ?_
  · rw [List.zipIdx_map_fst] at key
    rcases key with h' | ⟨x, hx, hl⟩
    · exact absurd h' h
    · have := List.mem_zipIdx_iff_getElem?.1 hx
      rw [hl]
      dsimp only at this
      unfold pickOf
      rw [this]
      rfl
  · rintro pre ⟨o, i⟩ post p _ h'
    have hal : ∀ o, alive (List.map (fun (x : Option Nat × Nat) => x.1) (pre ++ [(o, i)])) = alive (pre.map (·.1)) ++ o.toList := by
      intro o
      unfold alive
      rw [List.map_append, List.filterMap_append]
      cases o <;> rfl
    cases o with
    | none =>
      simp only [Option.isSome_none, Bool.false_eq_true, if_false]
      rw [hal]
      rcases h' with h' | ⟨x, hx, hl⟩
      · exact .inl (by simp [h'])
      · exact .inr ⟨x, by simp [hx], by simpa using hl⟩
    | some a =>
      right
      refine ⟨a, by simp, ?_⟩
      rw [hal]
      simp

/-- What the selection computes. -/
structure SelOk (l : List (Option Nat)) (left : List Nat) (s : Selection) : Prop where
  elim : Elim l s.cands
  alive : OpenMethod.alive s.cands = left
  remaining : s.remaining = left.length
  pick : left ≠ [] → s.cands[s.pick]?.join = left.getLast?

theorem selectDominant_spec (n2216 : Bool) (more : Nat → Nat → Bool) (ret : Nat → Option Cls) (td : Cls → List Cls)
    (l : List (Option Nat)) :
    (selectDominant n2216 more ret td l = .ub ∧ remainL n2216 ret (derOf td) (survivors more (alive l)) = .ub) ∨
    ∃ s left, selectDominant n2216 more ret td l = .ok s ∧
      remainL n2216 ret (derOf td) (survivors more (alive l)) = .ok left ∧ SelOk l left s := by
  have E := eliminate_ok more l.length l le_rfl
  have hal := alive_eliminate more l.length l le_rfl
  have hlast : alive (eliminate more l.length l) ≠ [] → (eliminate more l.length l)[pickOf (eliminate more l.length l)]?.join =
      (alive (eliminate more l.length l)).getLast? := pickOf_last _
  have hlen := E.elim.length
  unfold selectDominant remainL
  dsimp only
  rw [remainingOf_eq, ← hal]
  generalize eliminate more l.length l = l1 at *
  by_cases h1 : (alive l1).length ≤ 1
  · rw [if_pos h1, if_pos h1]
    exact .inr ⟨_, _, rfl, rfl, E.elim, rfl, rfl, fun h => pickOf_last _ h⟩
  · rw [if_neg h1, if_neg h1]
    have hne : alive l1 ≠ [] := by intro h0; rw [h0] at h1; simp at h1
    cases n2216 with
    | false =>
      exact .inr ⟨_, _, rfl, rfl, E.elim, rfl, rfl, fun h => pickOf_last _ h⟩
    | true =>
      simp only [if_true]
      rw [hlast hne]
      obtain ⟨p, hp⟩ : ∃ p, (alive l1).getLast? = some p := ⟨_, List.getLast?_eq_some_getLast hne⟩
      rw [hp]
      simp only [Res.ofOption_some, Res.ok_bind, Option.bind_some]
      by_cases hr : (ret p).isNone = true
      · rw [if_pos hr, if_pos hr]
        exact .inr ⟨_, _, rfl, rfl, E.elim, rfl, rfl, fun h => pickOf_last _ h⟩
      · rw [if_neg hr, if_neg hr]
        have hle : (alive l1).length ≤ l1.length := by unfold alive; exact List.length_filterMap_le _ _
        have key := alive_eliminateRet ret td l1.length l1 le_rfl
        rw [elimRetL_fuel ret (derOf td) l1.length (alive l1).length (alive l1) hle le_rfl] at key
        cases he : eliminateRet ret td l1.length l1 with
        | err e => exact absurd he (eliminateRet_no_err ret td _ _ e)
        | ub =>
          rw [he] at key
          exact .inl ⟨rfl, key⟩
        | ok l2 =>
          rw [he] at key
          have hne2 := elimRetL_nonempty ret (derOf td) _ _ key hne
          refine .inr ⟨_, alive l2, rfl, key, E.elim.trans (eliminateRet_elim ret td _ _ he), rfl, remainingOf_eq _, fun h => ?_⟩
          dsimp only
          rw [if_neg (by rw [remainingOf_eq]; intro h0; exact hne2 (List.eq_nil_of_length_eq_zero h0))]
          exact pickOf_last _ h

end OpenMethod
