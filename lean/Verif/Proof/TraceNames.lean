import Verif.Proof.TraceSound
import Verif.Proof.History
import Verif.Proof.Accept
import Verif.SpecTrace

/-!
# Lemmas about tracing: names, and the record that is responsible for an error
-/

namespace OpenMethod

open T Spec

variable {l : Nat}

theorem out_each_ok {α : Type} {o : Option Bool} {f : α → T Unit} {as : List α} (h : ∀ a ∈ as, (f a).res o l = .ok ()) : (each f as).out o l = as.flatMap fun a => (f a).out o l := by
  induction as with
  | nil => rfl
  | cons a as ih =>
    unfold each
    rw [out_bind_ok (h a (by simp)), ih fun a ha => h a (by simp [ha])]
    rfl

theorem mem_out_bind {α β : Type} {o : Option Bool} {x : T α} {f : α → T β} {t : Tok} (h : t ∈ x.out o l) : t ∈ (x >>= f).out o l := by
  rw [out_bind]
  exact List.mem_append_left _ h

/-! ## Types -/

theorem mem_sayTypes {ts : List TypeId} {t : TypeId} (h : t ∈ ts) : .type t ∈ (sayTypes ts).out (some true) l := by
  unfold sayTypes sepBy
  rw [out_bind_ok (res_say _)]
  apply List.mem_append_right
  apply mem_out_bind
  generalize "" = sep
  induction ts generalizing sep with
  | nil => simp at h
  | cons u ts ih =>
    unfold fold
    rw [out_bind]
    rcases List.mem_cons.1 h with rfl | h
    · apply List.mem_append_left
      rw [out_bind_ok (res_say _)]
      apply List.mem_append_right
      rw [out_bind_ok (res_say _)]
      simp
    · apply List.mem_append_right
      simp only [res_bind, res_say, Res.ok_bind, res_pure]
      exact ih h _

theorem mem_augmentClassesT (pl : Platform) (r : Rtti) {classes : List ClassInfo} {cr : ClassInfo} (hcr : cr ∈ classes) :
    .type cr.type ∈ (augmentClassesT pl r classes).out (some true) l ∧ ∀ t ∈ cr.bases, .type t ∈ (augmentClassesT pl r classes).out (some true) l := by
  have key : ∀ t, t ∈ ((indented do
      line [.type cr.type, .str ": "]
      sayTypes cr.bases
      say [.str "\n"]) : T Unit).out (some true) l → t ∈ (augmentClassesT pl r classes).out (some true) l := by
    intro t ht
    unfold augmentClassesT
    rw [out_bind_ok (res_line _)]
    apply List.mem_append_right
    apply mem_out_bind
    rw [out_each_ok (fun cr _ => by simp)]
    exact List.mem_flatMap.2 ⟨cr, hcr, ht⟩
  refine ⟨key _ ?_, fun t ht => key _ ?_⟩
  · rw [out_indented]
    apply mem_out_bind
    simp
  · rw [out_indented, out_bind_ok (res_line _)]
    apply List.mem_append_right
    exact mem_out_bind (mem_sayTypes ht)

/-! ## Records -/

@[simp] theorem records_nil : records [] = [] := rfl
@[simp] theorem records_append (a b : List Tok) : records (a ++ b) = records a ++ records b := List.filter_append ..

/-- Everything but names of methods and overriders. -/
theorem plain_other : Plain fun t => isRecord t = false := ⟨fun _ => rfl, fun _ => rfl, fun _ => rfl, fun _ _ => rfl, fun _ => rfl, rfl⟩

theorem records_of_snd {α : Type} {o : Option Bool} {x : T α} (h : Snd (fun t => isRecord t = false) o l x) : records (x.out o l) = [] := by
  unfold records
  rw [List.filter_eq_nil_iff]
  intro t ht
  simp [(h t ht).2]

theorem records_findClassesT (r : Rtti) (L : Lattice) (ts : List TypeId) : records ((findClassesT r L unknownParam ts).out (some true) l) = [] := by
  refine records_of_snd (snd_findClassesT plain_other fun t _ => ?_)
  exact .line (fun _ => rfl) (by simp [isRecord])

theorem records_findClassesT' (r : Rtti) (L : Lattice) (ts : List TypeId) : records ((findClassesT r L unknownOverriderParam ts).out (some true) l) = [] := by
  refine records_of_snd (snd_findClassesT plain_other fun t _ => ?_)
  unfold unknownOverriderParam
  snd plain_other []

theorem records_augmentClassesT (pl : Platform) (r : Rtti) (classes : List ClassInfo) : records ((augmentClassesT pl r classes).out (some true) l) = [] :=
  records_of_snd (snd_augmentClassesT plain_other (fun _ _ => ⟨rfl, fun _ _ => rfl⟩) fun _ _ _ _ _ => rfl)

theorem records_augmentOverriderT (r : Rtti) (L : Lattice) (mret : Option Cls) (ov : OverriderInfo) :
    records ((augmentOverriderT r L mret ov).out (some true) l) = [.overrider ov.pf] := by
  unfold augmentOverriderT
  rw [out_bind_ok (res_line _), records_append]
  have h1 : records ((line [.overrider ov.pf, .str " (", .addr, .str ")\n"]).out (some true) l) = [.overrider ov.pf] := rfl
  rw [h1, out_bind, records_append, records_findClassesT']
  cases (findClassesT r L unknownOverriderParam ov.vp).res (some true) l with
  | err e => rfl
  | ub => rfl
  | ok vp =>
    cases mret with
    | none => rfl
    | some c =>
      dsimp only
      rw [records_of_snd (Snd.lift_bind fun _ _ => .pure _)]
      rfl

theorem augmentOverrider_blame {r : Rtti} {L : Lattice} {mret : Option Cls} {ov : OverriderInfo} {e : Err} (h : augmentOverrider r L mret ov = .err e) :
    ∃ t, e = .missingClass t ∧ (t ∈ ov.vp ∨ t = ov.ret ∧ mret.isSome = true) ∧ r.ti t ∉ L.order := by
  unfold augmentOverrider at h
  rcases Res.bind_eq_err.1 h with h | ⟨vp, _, h⟩
  · obtain ⟨t, h1, h2, h3⟩ := findClasses_err h
    exact ⟨t, h3, .inl h1, h2⟩
  · cases mret with
    | none => simp at h
    | some c =>
      dsimp only at h
      rcases Res.bind_eq_err.1 h with h | ⟨c, _, h⟩
      · obtain ⟨h1, h2⟩ := findClass_err.1 h
        exact ⟨ov.ret, h1, .inr ⟨rfl, rfl⟩, h2⟩
      · simp at h

/-- Overriders are named in order, up to the one that causes an error. -/
theorem records_augmentOverridersT (r : Rtti) (L : Lattice) (mret : Option Cls) (os : List OverriderInfo) :
    ((∃ os', augmentOverriders r L mret os = .ok os') ∧ records ((augmentOverridersT r L mret os).out (some true) l) = os.map fun o => .overrider o.pf) ∨
    ∃ above ov below t, os = above ++ ov :: below ∧ augmentOverriders r L mret os = .err (.missingClass t) ∧ (t ∈ ov.vp ∨ t = ov.ret ∧ mret.isSome = true) ∧ r.ti t ∉ L.order ∧
      records ((augmentOverridersT r L mret os).out (some true) l) = (above ++ [ov]).map fun o => .overrider o.pf := by
  induction os with
  | nil => exact .inl ⟨⟨[], rfl⟩, rfl⟩
  | cons ov os ih =>
    unfold augmentOverridersT augmentOverriders
    rw [out_bind, records_append, records_augmentOverriderT, res_augmentOverriderT]
    cases ho : augmentOverrider r L mret ov with
    | ub =>
      exfalso
      unfold augmentOverrider at ho
      rcases Res.bind_eq_ub.1 ho with h | ⟨_, _, h⟩
      · exact findClasses_ub h
      · cases mret with
        | none => simp at h
        | some c =>
          dsimp only at h
          rcases Res.bind_eq_ub.1 h with h | ⟨_, _, h⟩
          · exact findClass_ub h
          · simp at h
    | err e =>
      obtain ⟨t, rfl, h1, h2⟩ := augmentOverrider_blame ho
      exact .inr ⟨[], ov, os, t, rfl, rfl, h1, h2, rfl⟩
    | ok ov' =>
      dsimp only
      rw [out_bind, records_append, res_augmentOverridersT]
      rcases ih with ⟨⟨os', h1⟩, h2⟩ | ⟨above, ov2, below, t, rfl, h1, h2, h3, h4⟩
      · rw [h1, h2]
        exact .inl ⟨⟨ov' :: os', by simp⟩, by simp [Pure.pure, T.out]⟩
      · rw [h1, h4]
        exact .inr ⟨ov :: above, ov2, below, t, rfl, by simp, h2, h3, by simp⟩

/-- The part of `augmentMethodT` that precedes the lookup of classes. -/
theorem records_header (m : MethodInfo) {α : Type} (x : T α) :
    ((do
      line [.method m.id, .str " "]
      sayTypes m.vp
      say [.str "\n"]
      x : T α)).out (some true) l = .indent l :: .method m.id :: .str " " :: (sayTypes m.vp).out (some true) l ++ .str "\n" :: x.out (some true) l := by
  rw [out_bind_ok (res_line _), out_bind_ok (res_sayTypes _), out_bind_ok (res_say _)]
  simp

theorem records_sayTypes (ts : List TypeId) : records ((sayTypes ts).out (some true) l) = [] := records_of_snd (snd_sayTypes plain_other fun _ _ => rfl)

theorem records_augmentMethodT (r : Rtti) (L : Lattice) (m : MethodInfo) :
    ((∃ m', augmentMethod r L m = .ok m') ∧ records ((augmentMethodT r L m).out (some true) l) = recordsOf m) ∨
    ∃ t, augmentMethod r L m = .err (.missingClass t) ∧ r.ti t ∉ L.order ∧
      ((t ∈ m.vp ∧ .type t ∈ (augmentMethodT r L m).out (some true) l ∧ records ((augmentMethodT r L m).out (some true) l) = [.method m.id]) ∨
       ∃ above ov below, m.overriders = above ++ ov :: below ∧ (t ∈ ov.vp ∨ t = ov.ret ∧ (methodRet r L m.ret).isSome = true) ∧
        records ((augmentMethodT r L m).out (some true) l) = recordsOf { m with overriders := above ++ [ov] }) := by
  have hrec : ∀ {α : Type} (x : T α), records (((do
      line [.method m.id, .str " "]
      sayTypes m.vp
      say [.str "\n"]
      x : T α)).out (some true) l) = .method m.id :: records (x.out (some true) l) := by
    intro α x
    rw [records_header, records_append]
    have : records (.indent l :: .method m.id :: .str " " :: (sayTypes m.vp).out (some true) l) = .method m.id :: records ((sayTypes m.vp).out (some true) l) := rfl
    rw [this, records_sayTypes]
    rfl
  unfold augmentMethodT augmentMethod
  rw [hrec, records_header, out_indented]
  simp only [out_bind, records_append, records_findClassesT, List.nil_append, res_findClassesT (unknown := unknownParam) (fun _ => rfl), res_augmentOverridersT]
  cases hv : findClasses r L m.vp with
  | ub => exact absurd hv findClasses_ub
  | err e =>
    obtain ⟨t, h1, h2, rfl⟩ := findClasses_err hv
    refine .inr ⟨t, rfl, h2, .inl ⟨h1, ?_, rfl⟩⟩
    have := mem_sayTypes (l := l) h1
    simp [this]
  | ok vp =>
    dsimp only
    rw [records_append]
    rcases records_augmentOverridersT (l := l + 2) r L (methodRet r L m.ret) m.overriders with ⟨⟨os', h1⟩, h2⟩ | ⟨above, ov, below, t, h0, h1, h2, h3, h4⟩
    · rw [h1, h2]
      exact .inl ⟨⟨_, rfl⟩, by simp [recordsOf]⟩
    · rw [h1, h4]
      exact .inr ⟨t, rfl, h3, .inr ⟨above, ov, below, h0, h2, by simp [recordsOf]⟩⟩

theorem records_augmentMethodsT (r : Rtti) (L : Lattice) (ms : List MethodInfo) :
    ((∃ ms', augmentMethods r L ms = .ok ms') ∧ records ((augmentMethodsT r L ms).out (some true) l) = ms.flatMap recordsOf) ∨
    ∃ t before m after, augmentMethods r L ms = .err (.missingClass t) ∧ r.ti t ∉ L.order ∧ ms = before ++ m :: after ∧
      ((t ∈ m.vp ∧ .type t ∈ (augmentMethodsT r L ms).out (some true) l ∧ records ((augmentMethodsT r L ms).out (some true) l) = before.flatMap recordsOf ++ [.method m.id]) ∨
       ∃ above ov below, m.overriders = above ++ ov :: below ∧ (t ∈ ov.vp ∨ t = ov.ret ∧ (methodRet r L m.ret).isSome = true) ∧
        records ((augmentMethodsT r L ms).out (some true) l) = before.flatMap recordsOf ++ recordsOf { m with overriders := above ++ [ov] }) := by
  induction ms with
  | nil => exact .inl ⟨⟨[], rfl⟩, rfl⟩
  | cons m ms ih =>
    unfold augmentMethodsT augmentMethods
    have hres : (augmentMethodT r L m).res (some true) l = augmentMethod r L m := by
      unfold augmentMethodT augmentMethod
      simp only [res_bind, res_line, res_sayTypes, res_say, Res.ok_bind, res_indented, res_findClassesT (unknown := unknownParam) (fun _ => rfl), res_augmentOverridersT]
      rfl
    simp only [out_bind, records_append, hres]
    rcases records_augmentMethodT (l := l) r L m with ⟨⟨m', h1⟩, h2⟩ | ⟨t, h1, h2, h3⟩
    · rw [h1, h2]
      dsimp only
      simp only [records_append, res_augmentMethodsT]
      rcases ih with ⟨⟨ms', h3⟩, h4⟩ | ⟨t, before, m2, after, h3, h4, rfl, h5⟩
      · rw [h3, h4]
        exact .inl ⟨⟨_, rfl⟩, by simp⟩
      · rw [h3]
        refine .inr ⟨t, m :: before, m2, after, rfl, h4, rfl, ?_⟩
        rcases h5 with ⟨h5, h6, h7⟩ | ⟨above, ov, below, h5, h6, h7⟩
        · exact .inl ⟨h5, by simp [h6], by rw [h7]; simp⟩
        · exact .inr ⟨above, ov, below, h5, h6, by rw [h7]; simp⟩
    · rw [h1]
      refine .inr ⟨t, [], m, ms, rfl, h2, rfl, ?_⟩
      rcases h3 with ⟨h3, h4, h5⟩ | ⟨above, ov, below, h3, h4, h5⟩
      · exact .inl ⟨h3, by simp [h4], by rw [h5]; simp⟩
      · exact .inr ⟨above, ov, below, h3, h4, by rw [h5]; simp⟩

theorem out_augmentT (r : Rtti) (L : Lattice) (ms : List MethodInfo) :
    (augmentT r L ms).out (some true) l = [.indent l, .str "Methods:\n"] ++ (augmentMethodsT r L ms).out (some true) (l + 2) := by
  unfold augmentT
  rw [out_bind_ok (res_line _), out_indented, out_bind]
  cases (augmentMethodsT r L ms).res (some true) (l + 2) with
  | ub => simp
  | err e => simp
  | ok ms' =>
    simp only [out_line, if_true]
    rw [out_bind]
    cases checkMethods L ms' <;> simp

theorem records_augmentT (r : Rtti) (L : Lattice) (ms : List MethodInfo) : records ((augmentT r L ms).out (some true) l) = records ((augmentMethodsT r L ms).out (some true) (l + 2)) := by
  rw [out_augmentT, records_append]
  rfl

/-- What is written when `compile` fails because of a missing class. -/
theorem compileT_blames {pl : Platform} {n : Bool} {p : Program} (hac : Acyclic p) (hwf : ∀ m ∈ p.methods, m.WF) {t : TypeId} (h : compile pl n p = .err (.missingClass t)) :
    Blames p ((compileT pl n p).out (some true) l) t ∧ ¬ Registered p (p.rtti.ti t) := by
  unfold compileT
  rw [out_bind, res_augmentClassesT hac]
  rcases compile_shape h hac hwf with ⟨e, he, h1⟩ | ⟨he, _⟩ | ⟨_, _, he, _⟩
  · obtain rfl := Res.err.inj he
    rcases h1 with h1 | ⟨L, h1, h2⟩
    · rw [h1]
      obtain ⟨cr, hcr, u, hu, hn, he⟩ := augmentClasses_err h1
      obtain rfl := Err.missingClass.inj he
      have hm := mem_augmentClassesT (l := l) pl p.rtti hcr
      refine ⟨.base cr hcr hu ?_ ?_ ?_, hn⟩
      · simpa using hm.1
      · simpa using hm.2 t hu
      · simp [records_augmentClassesT]
    · rw [h1]
      dsimp only
      have hL := augmentClasses_ok hac h1
      rw [out_bind, res_augmentT, h2]
      simp only [List.append_nil]
      have hrec : records ((augmentClassesT pl p.rtti p.classes).out (some true) l ++ (augmentT p.rtti L p.methods).out (some true) l) =
          records ((augmentMethodsT p.rtti L p.methods).out (some true) (l + 2)) := by
        rw [records_append, records_augmentClassesT, records_augmentT, List.nil_append]
      have hmem : ∀ x, x ∈ (augmentMethodsT p.rtti L p.methods).out (some true) (l + 2) →
          x ∈ (augmentClassesT pl p.rtti p.classes).out (some true) l ++ (augmentT p.rtti L p.methods).out (some true) l := by
        intro x hx
        rw [out_augmentT]
        simp [hx]
      rcases records_augmentMethodsT (l := l + 2) p.rtti L p.methods with ⟨⟨ms', h3⟩, _⟩ | ⟨u, before, m, after, h3, h4, h5, h6⟩
      · exfalso
        unfold augment at h2
        rw [h3] at h2
        simp only [Res.ok_bind] at h2
        rcases Res.bind_eq_err.1 h2 with h2 | ⟨_, _, h2⟩
        · obtain ⟨_, _, _, _, _, _, _, _, _, _, _, _, _, _, _, h2⟩ := checkMethods_err h2
          cases h2
        · simp at h2
      · unfold augment at h2
        rw [h3] at h2
        have he : Err.missingClass u = .missingClass t := Res.err.inj h2
        obtain rfl := Err.missingClass.inj he
        refine ⟨?_, fun hr => h4 ((hL.mem_order _).2 hr)⟩
        rcases h6 with ⟨h6, h7, h8⟩ | ⟨above, ov, below, h6, h7, h8⟩
        · exact .param before after m h5 h6 (hmem _ h7) (by rw [hrec, h8])
        · refine .overrider before after m above below ov h5 h6 ?_ (by rw [hrec, h8])
          rw [← methodRet_eq hL m]
          exact h7
  · cases he
  · cases he

end OpenMethod
