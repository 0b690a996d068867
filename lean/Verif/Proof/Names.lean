import Verif.Model.Names

/-!
# Lemmas about pasted names
-/

namespace OpenMethod.Names

/-- The number a numeral stands for. -/
def value (l : Name) : Nat := l.foldl (fun n ch => 10 * n + (ch.toNat - 48)) 0

theorem digit_toNat {d : Nat} (h : d < 10) : (digit d).toNat = 48 + d := by
  match d, h with
  | 0, _ | 1, _ | 2, _ | 3, _ | 4, _ | 5, _ | 6, _ | 7, _ | 8, _ | 9, _ => decide

theorem value_snoc (l : Name) (ch : Char) :
    value (l ++ [ch]) = 10 * value l + (ch.toNat - 48) := by
  simp [value, List.foldl_append]

theorem value_decimal (n : Nat) : value (decimal n) = n := by
  induction n using Nat.strongRecOn with
  | ind n ih =>
    rw [decimal]
    split
    · rename_i h
      simp [value, digit_toNat h]
    · rename_i h
      rw [value_snoc, ih (n / 10) (by omega), digit_toNat (by omega)]
      omega

theorem decimal_inj {a b : Nat} (h : decimal a = decimal b) : a = b := by
  rw [← value_decimal a, h, value_decimal]

theorem decimal_last (n : Nat) : ∃ l d, d < 10 ∧ decimal n = l ++ [digit d] := by
  rw [decimal]
  split
  · exact ⟨[], n, ‹_›, rfl⟩
  · exact ⟨_, n % 10, by omega, rfl⟩

theorem decimal_mem {n : Nat} {ch : Char} (h : ch ∈ decimal n) : ∃ d, d < 10 ∧ ch = digit d := by
  induction n using Nat.strongRecOn with
  | ind n ih =>
    rw [decimal] at h
    split at h
    · rename_i hn
      exact ⟨n, hn, by simpa using h⟩
    · rename_i hn
      rcases List.mem_append.1 h with h | h
      · exact ih (n / 10) (by omega) h
      · exact ⟨n % 10, by omega, by simpa using h⟩

theorem gensym_inj {a b : Nat} (h : gensym a = gensym b) : a = b :=
  decimal_inj (List.append_cancel_left h)

theorem digit_ne {d : Nat} (h : d < 10) : digit d ≠ 'd' ∧ digit d ≠ 'e' ∧ digit d ≠ 's'
    ∧ digit d ≠ '_' := by
  match d, h with
  | 0, _ | 1, _ | 2, _ | 3, _ | 4, _ | 5, _ | 6, _ | 7, _ | 8, _ | 9, _ => decide

/-- The last character of each kind of name. -/
theorem idName_last (m : Name) : (idName m).getLast? = some 'd' := by
  simp [idName, idSuffix, List.getLast?_append]

theorem guideName_last (m : Name) : (guideName m).getLast? = some 'e' := by
  simp [guideName, guideSuffix, List.getLast?_append]

theorem overridersName_last (m : Name) : (overridersName m).getLast? = some 's' := by
  simp [overridersName, overridersSuffix, List.getLast?_append]

theorem gensym_last (n : Nat) : ∃ d, d < 10 ∧ (gensym n).getLast? = some (digit d) := by
  obtain ⟨l, d, hd, h⟩ := decimal_last n
  exact ⟨d, hd, by simp [gensym, h, List.getLast?_append]⟩

/-- The name under which an entity is declared; for a registrar, the counter
matters rather than the place. -/
inductive Declares : Decl → Prop
  | id (m) : Declares ⟨idName m, .id m⟩
  | guide (m) : Declares ⟨guideName m, .guide m⟩
  | forwarder (m) : Declares ⟨m, .forwarder m⟩
  | overriders (m) : Declares ⟨overridersName m, .overriders m⟩
  | registrar (c k) : Declares ⟨gensym c, .registrar k⟩

theorem expandFrom_declares (us : List Use) : ∀ c k, ∀ d ∈ expandFrom c k us, Declares d := by
  induction us with
  | nil => intro c k d h; simp [expandFrom] at h
  | cons u us ih =>
    intro c k d h
    rw [expandFrom, List.mem_append] at h
    rcases h with h | h
    · cases u <;> simp [expandUse, overridersDecl, registerDecl] at h
      case method m => rcases h with rfl | rfl | rfl | rfl <;> constructor
      case override m => rcases h with rfl | rfl <;> constructor
      case inlineOverride m => rcases h with rfl | rfl <;> constructor
      all_goals (subst h; constructor)
    · exact ih _ _ d h

theorem counter_le (c k : Nat) (u : Use) : c ≤ (expandUse c k u).2 := by
  cases u <;> simp [expandUse]

/-- Later registrars have later counters. -/
theorem expandFrom_registrar (us : List Use) : ∀ c k, ∀ d ∈ expandFrom c k us, ∀ j,
    d.entity = .registrar j → k ≤ j ∧ ∃ n, c ≤ n ∧ d.name = gensym n := by
  induction us with
  | nil => intro c k d h; simp [expandFrom] at h
  | cons u us ih =>
    intro c k d h j hj
    rw [expandFrom, List.mem_append] at h
    rcases h with h | h
    · cases u <;> simp [expandUse, overridersDecl, registerDecl] at h
      case method m => rcases h with rfl | rfl | rfl | rfl <;> simp at hj
      case override m =>
        rcases h with rfl | rfl <;> simp at hj
        exact ⟨by omega, c, Nat.le_refl _, rfl⟩
      case inlineOverride m =>
        rcases h with rfl | rfl <;> simp at hj
        exact ⟨by omega, c, Nat.le_refl _, rfl⟩
      case declareOverrider m => subst h; simp at hj
      all_goals
        subst h
        simp at hj
        exact ⟨by omega, c, Nat.le_refl _, rfl⟩
    · obtain ⟨h1, n, h2, h3⟩ := ih _ _ d h j hj
      exact ⟨by omega, n, Nat.le_trans (counter_le c k u) h2, h3⟩

/-- Forwarders are declared by `BOOST_OPENMETHOD`. -/
theorem expandFrom_forwarder (us : List Use) : ∀ c k, ∀ m,
    (⟨m, .forwarder m⟩ : Decl) ∈ expandFrom c k us ↔ Use.method m ∈ us := by
  induction us with
  | nil => intro c k m; simp [expandFrom]
  | cons u us ih =>
    intro c k m
    rw [expandFrom, List.mem_append, ih, List.mem_cons]
    refine or_congr ?_ Iff.rfl
    cases u <;> simp [expandUse, overridersDecl, registerDecl]

/-- Two declarations under one name, neither of a forwarder, are of one entity, or
both are registrars. -/
theorem declares_same {d e : Decl} (hd : Declares d) (he : Declares e) (hn : d.name = e.name)
    (h1 : ∀ m, d.entity ≠ .forwarder m) (h2 : ∀ m, e.entity ≠ .forwarder m) :
    d.entity = e.entity ∨ ∃ i j, d.entity = .registrar i ∧ e.entity = .registrar j := by
  have hl := congrArg List.getLast? hn
  cases hd <;> cases he <;> simp only [idName_last, guideName_last, overridersName_last] at hl
  case forwarder.id => exact absurd rfl (h1 _)
  case forwarder.guide => exact absurd rfl (h1 _)
  case forwarder.forwarder => exact absurd rfl (h1 _)
  case forwarder.overriders => exact absurd rfl (h1 _)
  case forwarder.registrar => exact absurd rfl (h1 _)
  case id.forwarder => exact absurd rfl (h2 _)
  case guide.forwarder => exact absurd rfl (h2 _)
  case overriders.forwarder => exact absurd rfl (h2 _)
  case registrar.forwarder => exact absurd rfl (h2 _)
  case id.id => exact .inl (congrArg Entity.id (List.append_cancel_right hn))
  case guide.guide =>
    exact .inl (congrArg Entity.guide (List.append_cancel_right (List.append_cancel_right hn)))
  case overriders.overriders =>
    exact .inl (congrArg Entity.overriders (List.append_cancel_right (List.append_cancel_right hn)))
  case registrar.registrar => exact .inr ⟨_, _, rfl, rfl⟩
  case id.registrar c _ =>
    obtain ⟨x, hx, hg⟩ := gensym_last c
    rw [hg] at hl
    exact absurd (Option.some.inj hl).symm (digit_ne hx).1
  case guide.registrar c _ =>
    obtain ⟨x, hx, hg⟩ := gensym_last c
    rw [hg] at hl
    exact absurd (Option.some.inj hl).symm (digit_ne hx).2.1
  case overriders.registrar c _ =>
    obtain ⟨x, hx, hg⟩ := gensym_last c
    rw [hg] at hl
    exact absurd (Option.some.inj hl).symm (digit_ne hx).2.2.1
  case registrar.id c _ _ =>
    obtain ⟨x, hx, hg⟩ := gensym_last c
    rw [hg] at hl
    exact absurd (Option.some.inj hl) (digit_ne hx).1
  case registrar.guide c _ _ =>
    obtain ⟨x, hx, hg⟩ := gensym_last c
    rw [hg] at hl
    exact absurd (Option.some.inj hl) (digit_ne hx).2.1
  case registrar.overriders c _ _ =>
    obtain ⟨x, hx, hg⟩ := gensym_last c
    rw [hg] at hl
    exact absurd (Option.some.inj hl) (digit_ne hx).2.2.1
  all_goals exact absurd (Option.some.inj hl) (by decide)

/-- Registrars are all declared under different names, and are all different. -/
theorem expandFrom_gensyms (us : List Use) : ∀ c k, (expandFrom c k us).Pairwise fun d e =>
    ∀ i j, d.entity = .registrar i → e.entity = .registrar j → d.name ≠ e.name := by
  induction us with
  | nil => intro c k; exact List.Pairwise.nil
  | cons u us ih =>
    intro c k
    rw [expandFrom, List.pairwise_append]
    refine ⟨?_, ih _ _, ?_⟩
    · cases u <;> simp [expandUse, overridersDecl, registerDecl]
    · intro d hd e he i j hi hj hn
      obtain ⟨-, n, hle, hne⟩ := expandFrom_registrar us _ _ e he j hj
      have hc : d.name = gensym c ∧ (expandUse c k u).2 = c + 1 := by
        cases u <;> simp [expandUse, overridersDecl, registerDecl] at hd ⊢
        case method m => rcases hd with rfl | rfl | rfl | rfl <;> simp at hi
        case declareOverrider m => subst hd; simp at hi
        case override m => rcases hd with rfl | rfl <;> simp at hi ⊢
        case inlineOverride m => rcases hd with rfl | rfl <;> simp at hi ⊢
        all_goals simp [hd]
      rw [hc.2] at hle
      rw [hc.1, hne] at hn
      have := gensym_inj hn
      omega

end OpenMethod.Names
