import Verif.Proof.Names

/-!
# C98: the names that the macros declare do not collide

Spec: `WellNamed` — in the declarations of a translation unit, two of them bear the
same name only when they declare the same entity again, and an object is declared
once; `Ordinary` — a method name that is not of the form the macros generate;
`Reserved` — an identifier that C++ reserves to the implementation.
-/

namespace OpenMethod.Names

/-- Declarations under one name declare one entity, and no registrar twice. -/
def WellNamed (ds : List Decl) : Prop :=
  ds.Pairwise fun d e => d.name = e.name → d.entity = e.entity ∧ ∀ k, d.entity ≠ .registrar k

/-- A name that ends neither in `_boost_openmethod`, nor in
`_boost_openmethod_guide`, nor in `_boost_openmethod_overriders`, and does not begin
with `openmethod_gensym_`. -/
def Ordinary (m : Name) : Prop :=
  (¬ ∃ b, m = b ++ "_boost_openmethod".toList) ∧
  (¬ ∃ b, m = b ++ "_boost_openmethod_guide".toList) ∧
  (¬ ∃ b, m = b ++ "_boost_openmethod_overriders".toList) ∧
  ¬ ∃ b, m = "openmethod_gensym_".toList ++ b

/-- C++ reserves, in every scope, the identifiers with two consecutive underscores
and those that begin with an underscore and a capital ([lex.name]). -/
def Reserved (n : Name) : Prop :=
  (∃ a b, n = a ++ '_' :: '_' :: b) ∨ ∃ ch b, n = '_' :: ch :: b ∧ ch.isUpper

/-- **C98.**  Whatever the macros of a translation unit, in whatever order, their
declarations collide only where a *method* is given the name of something else:
no two generated names are the same by accident, however long the unit is. -/
theorem _root_.OpenMethod.Props.C98 (us : List Use) :
    WellNamed (expand us) ↔
      ∀ m, Use.method m ∈ us → ∀ d ∈ expand us, d.name = m → d.entity = .forwarder m := by
  have hdecl := expandFrom_declares us 0 0
  constructor
  · intro h m hm d hd hn
    have hf := (expandFrom_forwarder us 0 0 m).2 hm
    by_cases heq : d = ⟨m, .forwarder m⟩
    · rw [heq]
    · have hboth : (d.name = m → d.entity = .forwarder m) ∨
          (m = d.name → Entity.forwarder m = d.entity) := by
        have h' : (expand us).Pairwise fun x y =>
            (x.name = y.name → x.entity = y.entity) := h.imp fun hxy hxn => (hxy hxn).1
        obtain ⟨i, hi, hdi⟩ := List.mem_iff_getElem.1 hd
        obtain ⟨j, hj, hfj⟩ := List.mem_iff_getElem.1 hf
        rw [List.pairwise_iff_getElem] at h'
        rcases Nat.lt_trichotomy i j with hij | hij | hij
        · have := h' i j hi hj hij
          rw [hdi] at this
          have hfj' : (expand us)[j] = ⟨m, .forwarder m⟩ := hfj
          rw [hfj'] at this
          exact .inl this
        · subst hij
          exact absurd (hdi.symm.trans hfj) heq
        · have := h' j i hj hi hij
          rw [hdi] at this
          have hfj' : (expand us)[j] = ⟨m, .forwarder m⟩ := hfj
          rw [hfj'] at this
          exact .inr this
      rcases hboth with hb | hb
      · exact hb hn
      · exact (hb hn.symm).symm
  · intro h
    refine (expandFrom_gensyms us 0 0).imp_of_mem ?_
    intro d e hd he hreg hn
    have hd' := hdecl d hd
    have he' := hdecl e he
    by_cases h1 : ∃ m, d.entity = .forwarder m
    · obtain ⟨m, hm⟩ := h1
      have hdm : d = ⟨m, .forwarder m⟩ := by
        cases hd' <;> simp at hm
        rw [hm]
      have hmem := (expandFrom_forwarder us 0 0 m).1 (hdm ▸ hd)
      have hem := h m hmem e he (by rw [← hn, hdm])
      exact ⟨by rw [hm, hem], by intro k hk; rw [hm] at hk; exact Entity.noConfusion hk⟩
    · by_cases h2 : ∃ m, e.entity = .forwarder m
      · obtain ⟨m, hm⟩ := h2
        have hem : e = ⟨m, .forwarder m⟩ := by
          cases he' <;> simp at hm
          rw [hm]
        have hmem := (expandFrom_forwarder us 0 0 m).1 (hem ▸ he)
        exact absurd ⟨m, h m hmem d hd (by rw [hn, hem])⟩ h1
      · have h1' : ∀ m, d.entity ≠ .forwarder m := fun m hm => h1 ⟨m, hm⟩
        have h2' : ∀ m, e.entity ≠ .forwarder m := fun m hm => h2 ⟨m, hm⟩
        rcases declares_same hd' he' hn h1' h2' with hs | ⟨i, j, hi, hj⟩
        · refine ⟨hs, fun k hk => ?_⟩
          exact hreg k k hk (hs ▸ hk) hn
        · exact absurd hn (hreg i j hi hj)

/-- **C98**, as a rule for users: with ordinary method names, nothing collides. -/
theorem _root_.OpenMethod.Props.C98_ordinary (us : List Use) (h : ∀ m, Use.method m ∈ us → Ordinary m) :
    WellNamed (expand us) := by
  rw [Props.C98]
  intro m hm d hd hn
  obtain ⟨o1, o2, o3, o4⟩ := h m hm
  have := expandFrom_declares us 0 0 d hd
  cases this with
  | id b => exact absurd ⟨b, by rw [← hn]; rfl⟩ o1
  | guide b =>
    exact absurd ⟨b, by rw [← hn]; simp [guideName, idName, guideSuffix, idSuffix]⟩ o2
  | forwarder b => exact congrArg Entity.forwarder hn
  | overriders b =>
    exact absurd ⟨b, by rw [← hn]; simp [overridersName, idName, overridersSuffix, idSuffix]⟩ o3
  | registrar c k => exact absurd ⟨decimal c, by rw [← hn]; rfl⟩ o4

/-- The rule is needed: for each name that a macro generates there is a unit in which
a method with that name collides. -/
theorem _root_.OpenMethod.Props.C98_collision (b : Name) :
    ¬ WellNamed (expand [.method b, .method (idName b)]) ∧
    ¬ WellNamed (expand [.method b, .method (guideName b)]) ∧
    ¬ WellNamed (expand [.method b, .method (overridersName b)]) ∧
    ∀ c, ¬ WellNamed (expand (List.replicate c .counter ++ [.classes, .method (gensym c)])) := by
  refine ⟨?_, ?_, ?_, ?_⟩
  · intro h
    have := (Props.C98 _).1 h (idName b) (by simp) ⟨idName b, .id b⟩
      (by simp [expand, expandFrom, expandUse]) rfl
    exact Entity.noConfusion this
  · intro h
    have := (Props.C98 _).1 h (guideName b) (by simp) ⟨guideName b, .guide b⟩
      (by simp [expand, expandFrom, expandUse]) rfl
    exact Entity.noConfusion this
  · intro h
    have := (Props.C98 _).1 h (overridersName b) (by simp) ⟨overridersName b, .overriders b⟩
      (by simp [expand, expandFrom, expandUse, overridersDecl]) rfl
    exact Entity.noConfusion this
  · intro c h
    have hmem : ∀ n a k, (⟨gensym (a + n), .registrar (k + n)⟩ : Decl) ∈
        expandFrom a k (List.replicate n .counter ++ [.classes, .method (gensym c)]) := by
      intro n
      induction n with
      | zero => intro a k; simp [expandFrom, expandUse, registerDecl]
      | succ n ih =>
        intro a k
        have := ih (a + 1) (k + 1)
        simp only [List.replicate_succ, List.cons_append, expandFrom, expandUse, List.nil_append]
        rwa [show a + (n + 1) = a + 1 + n by omega, show k + (n + 1) = k + 1 + n by omega]
    have h0 := hmem c 0 0
    rw [Nat.zero_add] at h0
    have := (Props.C98 _).1 h (gensym c) (by simp) _ h0 rfl
    exact Entity.noConfusion this

/-! ### Reserved identifiers -/

theorem double_append {m s : Name} (hs : ¬ ∃ a b, s = a ++ '_' :: '_' :: b) (s' : Name)
    (hs' : s = '_' :: s') :
    (∃ a b, m ++ s = a ++ '_' :: '_' :: b) ↔
      (∃ a b, m = a ++ '_' :: '_' :: b) ∨ ∃ a, m = a ++ ['_'] := by
  constructor
  · rintro ⟨a, b, h⟩
    rcases List.append_eq_append_iff.1 h with ⟨w, hw1, hw2⟩ | ⟨w, hw1, hw2⟩
    · exact absurd ⟨w, b, hw2⟩ hs
    · match w, hw1, hw2 with
      | [], hw1, hw2 => exact absurd ⟨[], b, by simpa using hw2.symm⟩ hs
      | [x], hw1, hw2 =>
        simp only [List.cons_append, List.nil_append, List.cons.injEq] at hw2
        exact .inr ⟨a, by rw [hw1, ← hw2.1]⟩
      | x :: y :: w, hw1, hw2 =>
        simp only [List.cons_append, List.cons.injEq] at hw2
        exact .inl ⟨a, w, by rw [hw1, ← hw2.1, ← hw2.2.1]⟩
  · rintro (⟨a, b, rfl⟩ | ⟨a, rfl⟩)
    · exact ⟨a, b ++ s, by simp⟩
    · exact ⟨a, s', by simp [hs']⟩

/-- Whether two underscores follow each other. -/
def doubleB : Name → Bool
  | a :: b :: l => (a == '_' && b == '_') || doubleB (b :: l)
  | _ => false

theorem doubleB_of {a b : Name} : doubleB (a ++ '_' :: '_' :: b) = true := by
  induction a with
  | nil => rfl
  | cons x a ih =>
    cases a with
    | nil => simp [doubleB]
    | cons y a => simpa [doubleB] using Or.inr ih

theorem reserved_append (m s s' : Name) (hs : doubleB s = false) (hs' : s = '_' :: s')
    (hu : ∀ ch b, s' = ch :: b → ch.isUpper = false) :
    Reserved (m ++ s) ↔ Reserved m ∨ ∃ a, m = a ++ ['_'] := by
  have hd : ¬ ∃ a b, s = a ++ '_' :: '_' :: b := by
    rintro ⟨a, b, h⟩
    rw [h, doubleB_of] at hs
    exact Bool.noConfusion hs
  unfold Reserved
  rw [double_append hd s' hs']
  constructor
  · rintro ((h | h) | ⟨ch, b, h, hup⟩)
    · exact .inl (.inl h)
    · exact .inr h
    · match m, h with
      | [], h =>
        rw [List.nil_append, hs'] at h
        have := hu ch b (List.cons.inj h).2
        rw [this] at hup
        exact Bool.noConfusion hup
      | [x], h =>
        simp only [List.cons_append, List.nil_append, List.cons.injEq] at h
        exact .inr ⟨[], by rw [h.1]; rfl⟩
      | x :: y :: m, h =>
        simp only [List.cons_append, List.cons.injEq] at h
        exact .inl (.inr ⟨ch, m, by rw [h.1, h.2.1], hup⟩)
  · rintro ((h | ⟨ch, b, rfl, hup⟩) | h)
    · exact .inl (.inl h)
    · exact .inr ⟨ch, b ++ s, rfl, hup⟩
    · exact .inl (.inr h)

theorem gensym_not_double (n : Nat) : ¬ Reserved (gensym n) := by
  rintro (⟨a, b, h⟩ | ⟨ch, b, h, -⟩)
  · rcases List.append_eq_append_iff.1 h with ⟨w, hw1, hw2⟩ | ⟨w, hw1, hw2⟩
    · have : '_' ∈ decimal n := by rw [hw2]; simp
      obtain ⟨d, hd, he⟩ := decimal_mem this
      exact (digit_ne hd).2.2.2 he.symm
    · match w, hw1, hw2 with
      | [], hw1, hw2 =>
        have : '_' ∈ decimal n := by rw [← List.nil_append (decimal n), ← hw2]; simp
        obtain ⟨d, hd, he⟩ := decimal_mem this
        exact (digit_ne hd).2.2.2 he.symm
      | [x], hw1, hw2 =>
        simp only [List.cons_append, List.nil_append, List.cons.injEq] at hw2
        have : '_' ∈ decimal n := by rw [← hw2.2]; simp
        obtain ⟨d, hd, he⟩ := decimal_mem this
        exact (digit_ne hd).2.2.2 he.symm
      | x :: y :: w, hw1, hw2 =>
        simp only [List.cons_append, List.cons.injEq] at hw2
        have hp : gensymPrefix = a ++ '_' :: '_' :: w := by rw [hw1, ← hw2.1, ← hw2.2.1]
        have : doubleB gensymPrefix = true := by rw [hp]; exact doubleB_of
        exact absurd this (by decide)
  · have := congrArg List.head? h
    exact absurd (Option.some.inj this) (by decide)

/-- **C98**, about reserved identifiers: the macros declare a reserved identifier
exactly where they are given a reserved name — or, for the names they paste, a name
that ends in an underscore, which is not itself reserved. -/
theorem _root_.OpenMethod.Props.C98_reserved (us : List Use) (d : Decl) (hd : d ∈ expand us) :
    Reserved d.name ↔
      match d.entity with
      | .forwarder m => Reserved m
      | .id m | .guide m | .overriders m => Reserved m ∨ ∃ a, m = a ++ ['_']
      | .registrar _ => False := by
  have hs := expandFrom_declares us 0 0 d hd
  cases hs with
  | id m =>
    exact reserved_append m idSuffix _ (by decide) rfl
      (by intro ch b h; rw [← (List.cons.inj h).1]; decide)
  | guide m =>
    simp only [guideName, idName, List.append_assoc]
    exact reserved_append m (idSuffix ++ guideSuffix) _ (by decide) rfl
      (by intro ch b h; rw [← (List.cons.inj h).1]; decide)
  | overriders m =>
    simp only [overridersName, idName, List.append_assoc]
    exact reserved_append m (idSuffix ++ overridersSuffix) _ (by decide) rfl
      (by intro ch b h; rw [← (List.cons.inj h).1]; decide)
  | forwarder m => exact Iff.rfl
  | registrar c k => exact iff_of_false (gensym_not_double c) id

/-- A method `poke_`, a lawful identifier, makes the macro declare
`poke__boost_openmethod`, which is reserved. -/
theorem _root_.OpenMethod.Props.C98_trailing :
    ¬ Reserved ['p', 'o', 'k', 'e', '_'] ∧
    ∃ d ∈ expand [.method ['p', 'o', 'k', 'e', '_']], Reserved d.name := by
  constructor
  · rintro (⟨a, b, h⟩ | ⟨ch, b, h, -⟩)
    · have : doubleB ['p', 'o', 'k', 'e', '_'] = true := by rw [h]; exact doubleB_of
      exact absurd this (by decide)
    · have := congrArg List.head? h
      exact absurd (Option.some.inj this) (by decide)
  · refine ⟨⟨idName ['p', 'o', 'k', 'e', '_'], .id ['p', 'o', 'k', 'e', '_']⟩, by simp [expand, expandFrom, expandUse], ?_⟩
    exact .inl ⟨['p', 'o', 'k', 'e'], _, rfl⟩

/-! ### The hypotheses are met -/

namespace Example

def poke : Name := ['p', 'o', 'k', 'e']
def meet : Name := ['m', 'e', 'e', 't']

/-- Two methods, one of them declared with two signatures, overriders and classes,
and a stranger that uses the counter. -/
def unit : List Use :=
  [.classes, .method poke, .override poke, .counter, .method meet, .method meet,
    .declareOverrider meet, .defineOverrider meet, .inlineOverride poke, .register]

theorem ordinary : ∀ m, Use.method m ∈ unit → Ordinary m := by
  have key : ∀ m, m.length ≤ 4 → Ordinary m := by
    intro m hm
    refine ⟨?_, ?_, ?_, ?_⟩ <;> rintro ⟨b, rfl⟩ <;> simp at hm <;> omega
  intro m hm
  simp [unit] at hm
  rcases hm with rfl | rfl <;> exact key _ (by decide)

example : WellNamed (expand unit) := Props.C98_ordinary unit ordinary

example : (expand unit).length = 20 := by decide +kernel

/-- The last registrar of the unit is `openmethod_gensym_5`. -/
example : (expand unit).getLast? =
    some ⟨gensymPrefix ++ ['5'], .registrar 9⟩ := by decide +kernel

example : decimal 1305 = ['1', '3', '0', '5'] := by decide +kernel

end Example

end OpenMethod.Names
