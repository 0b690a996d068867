import Verif.SpecLookup
import Verif.Proof.MacroProgram
import Verif.Proof.UseClasses

/-!
# Name lookup
-/

namespace OpenMethod

open Spec Props Cpp

namespace Ns

theorem common_left : ∀ (a b : Ns), common a b <:+ a
  | [], _ => by simp [common]
  | n :: a, b => by
    unfold common
    split
    · exact List.suffix_refl _
    · exact (common_left a b).trans (List.suffix_cons _ _)

theorem common_right : ∀ (a b : Ns), common a b <:+ b
  | [], _ => by simp [common]
  | n :: a, b => by
    unfold common
    split
    · rename_i h
      exact List.isSuffixOf_iff_suffix.1 h
    · exact common_right a b

theorem common_greatest : ∀ (a b e : Ns), e <:+ a → e <:+ b → e <:+ common a b
  | [], _, e, h, _ => by simpa [common] using h
  | n :: a, b, e, h, h' => by
    unfold common
    split
    · exact h
    · rename_i hn
      rcases List.suffix_cons_iff.1 h with rfl | h
      · exact absurd (List.isSuffixOf_iff_suffix.2 h') hn
      · exact common_greatest a b e h h'

theorem suffix_antisymm {a b : Ns} (h : a <:+ b) (h' : b <:+ a) : a = b := h.eq_of_length (le_antisymm h.length_le h'.length_le)

theorem nearest_iff {a b e : Ns} : Nearest a b e ↔ common a b = e :=
  ⟨fun h => suffix_antisymm (h.2.2 _ (common_left a b) (common_right a b)) (common_greatest a b e h.1 h.2.1),
    fun h => h ▸ ⟨common_left a b, common_right a b, common_greatest a b⟩⟩

theorem reaches_refl : ∀ (ds : List (Ns × Ns)) (a : Ns), reaches ds a a = true
  | [], a => by simp [reaches]
  | _ :: ds, a => by simp [reaches, reaches_refl ds a]

theorem reaches_iff : ∀ {ds : List (Ns × Ns)} {a b : Ns}, reaches ds a b = true ↔ Relation.ReflTransGen (fun a b => (a, b) ∈ ds) a b
  | [], a, b => by
    simp only [reaches, decide_eq_true_eq]
    constructor
    · rintro rfl; exact .refl
    · intro h
      cases h with
      | refl => rfl
      | tail _ h => cases h
  | d :: ds, a, b => by
    have ih := fun a b => reaches_iff (ds := ds) (a := a) (b := b)
    have hmono : ∀ {a b}, Relation.ReflTransGen (fun a b => (a, b) ∈ ds) a b → Relation.ReflTransGen (fun a b => (a, b) ∈ d :: ds) a b :=
      fun h => Relation.ReflTransGen.mono (fun _ _ h => List.mem_cons_of_mem _ h) _ _ h
    simp only [reaches, Bool.or_eq_true, Bool.and_eq_true, ih]
    constructor
    · rintro (h | ⟨h1, h2⟩)
      · exact hmono h
      · exact ((hmono h1).tail (List.mem_cons_self ..)).trans (hmono h2)
    · intro h
      induction h using Relation.ReflTransGen.head_induction_on with
      | refl => exact .inl .refl
      | head h1 _ h2 =>
        rcases List.mem_cons.1 h1 with rfl | h1
        · rcases h2 with h2 | ⟨-, h2⟩
          · exact .inr ⟨.refl, h2⟩
          · exact .inr ⟨.refl, h2⟩
        · rcases h2 with h2 | ⟨h2, h3⟩
          · exact .inl (.head h1 h2)
          · exact .inr ⟨.head h1 h2, h3⟩

theorem nominated_iff {ds : List (Ns × Ns)} {a b : Ns} : Nominated ds a b ↔ ∃ d ∈ ds, reaches ds a d.1 = true ∧ d.2 = b := by
  rw [Nominated, Relation.TransGen.tail'_iff]
  constructor
  · rintro ⟨c, h1, h2⟩
    exact ⟨(c, b), h2, reaches_iff.2 h1, rfl⟩
  · rintro ⟨d, h1, h2, rfl⟩
    exact ⟨d.1, reaches_iff.1 h2, h1⟩

variable {α : Type} {D : Ns → List α} {ds : List (Ns × Ns)} {s : Ns} {x : α}

theorem mem_within {e : Ns} : x ∈ within D ds s e ↔ Shows (fun n y => y ∈ D n) ds s e x := by
  simp only [within, Shows, List.mem_append, List.mem_flatMap, List.mem_tails, nominated_iff]
  refine or_congr_right (exists_congr fun a => ?_)
  constructor
  · rintro ⟨h1, d, h2, h3⟩
    split at h3
    · rename_i h
      rw [Bool.and_eq_true, decide_eq_true_eq] at h
      exact ⟨d.2, h1, ⟨d, h2, h.1, rfl⟩, nearest_iff.2 h.2, h3⟩
    · cases h3
  · rintro ⟨b, h1, ⟨d, h2, h3, rfl⟩, h4, h5⟩
    exact ⟨h1, d, h2, by rw [if_pos (by simp [h3, nearest_iff.1 h4])]; exact h5⟩

theorem mem_firstOf : ∀ {t : Ns}, x ∈ firstOf D ds s t.tails ↔ ∃ e, e <:+ t ∧ x ∈ within D ds s e ∧ ∀ e', e' <:+ t → e.length < e'.length → within D ds s e' = []
  | [] => by
    simp only [List.tails, firstOf]
    constructor
    · intro h
      split at h
      · cases h
      · rename_i l _
        exact ⟨[], List.suffix_refl _, h, fun e' h1 h2 => by rw [List.suffix_nil.1 h1] at h2; cases h2⟩
    · rintro ⟨e, h1, h2, -⟩
      obtain rfl := List.suffix_nil.1 h1
      split
      · rename_i h; rw [h] at h2; cases h2
      · exact h2
  | n :: t => by
    have ih := mem_firstOf (t := t)
    simp only [List.tails, firstOf]
    split
    · rename_i h
      rw [ih]
      constructor
      · rintro ⟨e, h1, h2, h3⟩
        refine ⟨e, h1.trans (List.suffix_cons _ _), h2, fun e' h4 h5 => ?_⟩
        rcases List.suffix_cons_iff.1 h4 with rfl | h4
        · exact h
        · exact h3 e' h4 h5
      · rintro ⟨e, h1, h2, h3⟩
        rcases List.suffix_cons_iff.1 h1 with rfl | h1
        · rw [h] at h2; cases h2
        · exact ⟨e, h1, h2, fun e' h4 h5 => h3 e' (h4.trans (List.suffix_cons _ _)) h5⟩
    · rename_i hne
      constructor
      · intro h
        refine ⟨n :: t, List.suffix_refl _, h, fun e' h4 h5 => ?_⟩
        exact absurd (h4.length_le) (by simpa using h5)
      · rintro ⟨e, h1, h2, h3⟩
        rcases List.suffix_cons_iff.1 h1 with rfl | h1
        · exact h2
        · exact absurd (h3 (n :: t) (List.suffix_refl _) (by have := h1.length_le; simp; omega)) hne

theorem mem_unqualified : x ∈ unqualified D ds s ↔ Visible (fun n y => y ∈ D n) ds s x := by
  rw [unqualified, mem_firstOf]
  refine exists_congr fun e => and_congr_right fun _ => and_congr mem_within (forall_congr' fun e' => forall_congr' fun _ => forall_congr' fun _ => ?_)
  rw [List.eq_nil_iff_forall_not_mem]
  exact forall_congr' fun y => not_congr mem_within

end Ns

theorem Spaces.mem_associated {A : Spaces} {H : Hier} (hw : H.WF) {n : Ns} : ∀ {t : CT}, t.Proper → t.InHier H → (n ∈ A.associated H t ↔ A.Associated H t n)
  | .cls c, _, ht => by
    have hd : H.Defined c := ht
    simp only [associated, List.mem_cons, List.mem_map, List.mem_filterMap]
    constructor
    · rintro (rfl | ⟨b, ⟨σ, h1, h2⟩, rfl⟩)
      · exact .cls .refl
      · exact .cls (Hier.Subobject.inherits ((Hier.mem_subs hw).1 h1) h2)
    · rintro ⟨h⟩
      obtain ⟨σ, h1, h2⟩ := h.subobject hw hd
      exact .inr ⟨_, ⟨σ, (Hier.mem_subs hw).2 h1, h2⟩, rfl⟩
  | .other r, _, _ => ⟨.other, fun h => by cases h; assumption⟩
  | .lref t, hp, ht => (mem_associated hw (t := t) hp ht).trans ⟨.lref, fun h => by cases h; assumption⟩
  | .cref t, hp, ht => (mem_associated hw (t := t) hp ht).trans ⟨.cref, fun h => by cases h; assumption⟩
  | .rref t, hp, ht => (mem_associated hw (t := t) hp ht).trans ⟨.rref, fun h => by cases h; assumption⟩
  | .ptr t, hp, ht => (mem_associated hw (t := t) hp ht).trans ⟨.ptr, fun h => by cases h; assumption⟩
  | .smart k t, hp, ht => by
    rw [associated, List.mem_append, mem_associated hw (t := t) hp ht]
    exact ⟨fun h => h.elim .inSmart .smart, fun h => by cases h <;> simp [*]⟩
  | .virt t, hp, ht => by
    rw [associated, List.mem_append, mem_associated hw (t := t) hp ht]
    exact ⟨fun h => h.elim .inVirt .virt, fun h => by cases h <;> simp [*]⟩
  | .vptr t r, hp, ht => by
    have htp : t.Proper := by
      rcases hp.1 with ⟨c, rfl⟩ | ⟨k, c, rfl⟩ <;> trivial
    obtain ⟨m, rfl⟩ := hp.2
    rw [associated, List.mem_append, List.mem_append, mem_associated hw (t := t) htp ht, associated]
    refine ⟨fun h => h.elim .inVptr (·.elim .vptr fun h => .registry (.reg h)), fun h => ?_⟩
    cases h with
    | vptr h => exact .inr (.inl h)
    | registry h => cases h with | reg h => exact .inr (.inr h)
    | inVptr h => exact .inl h

namespace NsSource

variable {P : NsSource} {C : Context} {us : List (Ns × Nat)} {name : Ident} {n s : Ns} {k : Nat}

theorem isNamed_iff : P.isNamed name k = true ↔ ∃ m, P.methods[k]? = some m ∧ m.name = name := by
  simp [isNamed]

theorem isNamed_in : (P.isNamed name k && decide ((P.methods[k]?.map (·.ns)) = some n)) = true ↔ ∃ m, P.methods[k]? = some m ∧ m.name = name ∧ m.ns = n := by
  rw [Bool.and_eq_true, isNamed_iff, decide_eq_true_eq]
  constructor
  · rintro ⟨⟨m, h1, h2⟩, h3⟩
    refine ⟨m, h1, h2, ?_⟩
    simpa [h1] using h3
  · rintro ⟨m, h1, h2, h3⟩
    exact ⟨⟨m, h1, h2⟩, by simp [h1, h3]⟩

theorem mem_declared : k ∈ P.declared C us name n ↔ P.Declares C us name n k := by
  simp only [declared, List.mem_append, List.mem_filter, List.mem_map, isNamed_in, Declares]
  constructor
  · rintro (⟨h1, m, h2, h3, h4⟩ | ⟨u, ⟨h1, h2⟩, rfl⟩)
    · exact ⟨m, h2, h3, .inl ⟨h1, h4⟩⟩
    · rw [Bool.and_eq_true, decide_eq_true_eq, isNamed_iff] at h2
      obtain ⟨rfl, m, h3, h4⟩ := h2
      exact ⟨m, h3, h4, .inr h1⟩
  · rintro ⟨m, h1, h2, ⟨h3, h4⟩ | h3⟩
    · exact .inl ⟨h3, m, h1, h2, h4⟩
    · exact .inr ⟨_, ⟨h3, by simp [isNamed_iff, h1, h2]⟩, rfl⟩

/-- The lookup of methods is as specified. -/
theorem mem_found (hw : P.cpp.hier.WF) {as : List CT} (ha : ∀ a ∈ as, a.Proper ∧ a.InHier P.cpp.hier) :
    k ∈ (Ns.unqualified (P.declared C us name) C.directives s ++ P.byArguments (P.declared C us name) as).dedup ↔ P.Finds C us s name as k := by
  rw [List.mem_dedup, List.mem_append, Ns.mem_unqualified, show (fun n y => y ∈ P.declared C us name n) = P.Declares C us name from funext fun _ => funext fun _ => propext mem_declared]
  refine or_congr_right ?_
  simp only [byArguments, List.mem_flatMap, mem_declared]
  constructor
  · rintro ⟨n, ⟨a, h1, h2⟩, h3⟩
    exact ⟨a, h1, n, (Spaces.mem_associated hw (ha a h1).1 (ha a h1).2).1 h2, h3⟩
  · rintro ⟨a, h1, n, h2, h3⟩
    exact ⟨n, ⟨a, h1, (Spaces.mem_associated hw (ha a h1).1 (ha a h1).2).2 h2⟩, h3⟩

theorem Finds.declared {as : List CT} (h : P.Finds C us s name as k) : ∃ n, P.Declares C us name n k := by
  rcases h with ⟨e, -, h | ⟨_, d, -, -, -, h⟩, -⟩ | ⟨a, -, n, -, h⟩
  · exact ⟨_, h⟩
  · exact ⟨_, h⟩
  · exact ⟨_, h⟩

theorem Finds.lt {as : List CT} (h : P.Finds C us s name as k) : k < P.methods.length := by
  obtain ⟨n, m, hm, -⟩ := h.declared
  exact (List.getElem?_eq_some_iff.1 hm).1

theorem mem_containers {m : Ns} : m ∈ P.containers C name n ↔ m = n ∧ P.HasContainer C name n := by
  have : ((C.methods.any fun k => P.isNamed name k && decide ((P.methods[k]?.map (·.ns)) = some n)) || C.overriders.any fun o => decide (o.1 = n) && decide (o.2.1 = name)) = true ↔
      P.HasContainer C name n := by
    rw [Bool.or_eq_true, List.any_eq_true, List.any_eq_true]
    refine or_congr (exists_congr fun k => and_congr_right fun _ => isNamed_in) ?_
    constructor
    · rintro ⟨⟨a, b, g⟩, h1, h2⟩
      rw [Bool.and_eq_true, decide_eq_true_eq, decide_eq_true_eq] at h2
      obtain ⟨rfl, rfl⟩ := h2
      exact ⟨g, h1⟩
    · rintro ⟨g, h⟩
      exact ⟨_, h, by simp⟩
  unfold containers
  split
  · rename_i h
    simp [this.1 h]
  · rename_i h
    simp [mt this.2 h]

/-- A list without the repetitions. -/
theorem dedup_eq_singleton {α : Type} [DecidableEq α] {l : List α} {a : α} : l.dedup = [a] ↔ a ∈ l ∧ ∀ b ∈ l, b = a := by
  constructor
  · intro h
    have := fun b => List.mem_dedup (a := b) (l := l)
    rw [h] at this
    exact ⟨(this a).1 (by simp), fun b hb => List.mem_singleton.1 ((this b).2 hb)⟩
  · rintro ⟨h1, h2⟩
    have hn := l.nodup_dedup
    have hm : ∀ b ∈ l.dedup, b = a := fun b hb => h2 b (List.mem_dedup.1 hb)
    have ha : a ∈ l.dedup := List.mem_dedup.2 h1
    match h : l.dedup with
    | [] => rw [h] at ha; cases ha
    | [b] => rw [h] at hm; rw [hm b (by simp)]
    | b :: c :: r =>
      rw [h] at hn hm
      have : b = c := (hm b (by simp)).trans (hm c (by simp)).symm
      simp [this] at hn

/-- The container that a name denotes is the only visible one. -/
theorem container_iff : P.container C s name = some n ↔ Ns.Visible (fun n m => m = n ∧ P.HasContainer C name n) C.directives s n ∧
    ∀ m, Ns.Visible (fun n m => m = n ∧ P.HasContainer C name n) C.directives s m → m = n := by
  have e : (fun n m => m ∈ P.containers C name n) = fun n m => m = n ∧ P.HasContainer C name n := funext fun _ => funext fun _ => propext mem_containers
  rw [← e]
  simp only [← Ns.mem_unqualified]
  rw [← dedup_eq_singleton, container]
  constructor
  · intro h
    split at h
    · cases h; assumption
    · cases h
  · intro h
    rw [h]

/-- A namespace that has a container denotes it, unless there is a clash. -/
theorem container_own (h : P.HasContainer C name s) : P.container C s name = some n ↔ n = s ∧ ¬ P.Clashes C name s := by
  have hv : ∀ m, Ns.Visible (fun n m => m = n ∧ P.HasContainer C name n) C.directives s m ↔ Ns.Shows (fun n m => m = n ∧ P.HasContainer C name n) C.directives s s m := by
    intro m
    constructor
    · rintro ⟨e, h1, h2, h3⟩
      rcases lt_or_ge e.length s.length with hl | hl
      · exact absurd (.inl ⟨rfl, h⟩) (h3 s (List.suffix_refl _) hl s)
      · obtain rfl := h1.eq_of_length (le_antisymm h1.length_le hl)
        exact h2
    · exact fun hm => ⟨s, List.suffix_refl _, hm, fun e' h1 h2 => absurd h1.length_le (by omega)⟩
  rw [container_iff]
  simp only [hv]
  constructor
  · rintro ⟨-, h2⟩
    have := h2 s (.inl ⟨rfl, h⟩)
    subst this
    refine ⟨rfl, ?_⟩
    rintro ⟨a, d, h3, h4, h5, h6, h7⟩
    exact h6 (h2 d (.inr ⟨a, d, h3, h4, h5, rfl, h7⟩))
  · rintro ⟨rfl, h2⟩
    refine ⟨.inl ⟨rfl, h⟩, ?_⟩
    rintro m (⟨rfl, -⟩ | ⟨a, d, h3, h4, h5, rfl, h7⟩)
    · rfl
    · by_contra hne
      exact h2 ⟨a, _, h3, h4, h5, hne, h7⟩

/-- The declaration of the container in the macro is not that of another namespace. -/
theorem clashes_inner {o : NsOverride} : P.Clashes o.inner o.name o.ns ↔ P.Clashes o.ctx o.name o.ns := by
  refine exists_congr fun a => exists_congr fun d => and_congr_right fun _ => and_congr_right fun _ => and_congr_right fun _ => and_congr_right fun hne => ?_
  refine or_congr_right (exists_congr fun g => ?_)
  simp only [NsOverride.inner, List.mem_cons, Prod.mk.injEq]
  exact ⟨fun h => h.resolve_left fun h => hne h.1, .inr⟩

theorem placed_iff {o : NsOverride} : P.placed o = true ↔ ¬ P.Clashes o.ctx o.name o.ns ∧ (o.ns, o.name, o.sig) ∉ o.ctx.overriders := by
  rw [placed, Bool.and_eq_true, decide_eq_true_eq, decide_eq_true_eq, container_own (.inr ⟨o.sig, by simp [NsOverride.inner]⟩), clashes_inner]
  simp

theorem method_get : P.macros.methods[k]? = (P.methods[k]?).map (·.decl) := by
  simp [macros]

theorem lookup_found {found : List Nat} {F : Nat → Prop} (hn : found.Nodup) (hl : ∀ k, F k → k < P.methods.length) (hF : ∀ k, k ∈ found ↔ F k) {as : List CT} :
    P.macros.lookup found as = some k ↔ P.OnlyOne F as k := by
  obtain ⟨ms, hms⟩ := MacroSource.parameters_of (P := P.macros) (found := found) fun k hk => by simpa [macros] using hl k ((hF k).1 hk)
  rw [MacroSource.lookup_iff hms hn]
  simp only [method_get, Option.map_eq_some_iff, OnlyOne, hF]
  constructor
  · rintro ⟨⟨h1, _, ⟨m, h2, rfl⟩, h3⟩, h4⟩
    exact ⟨h1, ⟨m, h2, h3⟩, fun k' h5 m' h6 h7 => h4 k' h5 _ ⟨m', h6, rfl⟩ h7⟩
  · rintro ⟨h1, ⟨m, h2, h3⟩, h4⟩
    exact ⟨⟨h1, _, ⟨m, h2, rfl⟩, h3⟩, fun k' h5 _ ⟨m', h6, h7⟩ h8 => h4 k' h5 m' h6 (h7 ▸ h8)⟩

end NsSource

end OpenMethod
