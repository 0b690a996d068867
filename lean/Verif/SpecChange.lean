import Verif.SpecAccept

/-! # Specification: pairs of programs that should behave in the same way -/

namespace OpenMethod.Spec

/-- The same methods, and the same inheritance relation between the same registered classes: the class records may be split,
repeated and ordered in other ways. -/
structure SameInheritance (p p' : Program) : Prop where
  rtti : p'.rtti = p.rtti
  methods : p'.methods = p.methods
  registered : ∀ c, Registered p' c ↔ Registered p c
  derives : ∀ a b, Derives p' a b ↔ Derives p a b

/-- `p'` registers once more, somewhere, a class that `p` registers, with the same bases. -/
def Repeats (p p' : Program) : Prop :=
  p'.rtti = p.rtti ∧ p'.methods = p.methods ∧
  ∃ pre post cr cr', p.classes = pre ++ post ∧ p'.classes = pre ++ cr' :: post ∧ cr ∈ p.classes ∧
    p.rtti.ti cr'.type = p.rtti.ti cr.type ∧ cr'.bases.map p.rtti.ti = cr.bases.map p.rtti.ti

/-- The same method with its overriders in another order. -/
structure Reordered (m m' : MethodInfo) : Prop where
  id : m'.id = m.id
  params : m'.params = m.params
  vp : m'.vp = m.vp
  ret : m'.ret = m.ret
  overriders : m'.overriders.Perm m.overriders

/-- The same program, with the overriders of its methods in other orders. -/
structure Reorders (p p' : Program) : Prop where
  rtti : p'.rtti = p.rtti
  classes : p'.classes = p.classes
  methods : List.Forall₂ Reordered p.methods p'.methods

/-- The same method with one more overrider. -/
structure Extended (m m' : MethodInfo) (o : OverriderInfo) : Prop where
  id : m'.id = m.id
  params : m'.params = m.params
  vp : m'.vp = m.vp
  ret : m'.ret = m.ret
  overriders : ∃ pre post, m.overriders = pre ++ post ∧ m'.overriders = pre ++ o :: post

theorem Repeats.same {p p' : Program} (h : Repeats p p') : SameInheritance p p' := by
  obtain ⟨h1, h2, pre, post, cr, cr', h3, h4, h5, h6, h7⟩ := h
  have hmem : ∀ c, c ∈ p'.classes ↔ c = cr' ∨ c ∈ p.classes := by
    intro c
    rw [h3, h4]
    simp only [List.mem_append, List.mem_cons]
    tauto
  have hdecl : DeclaredBase p' = DeclaredBase p := by
    funext d b
    unfold DeclaredBase
    rw [h1]
    apply propext
    constructor
    · rintro ⟨c, hc, e1, t, ht, e2, hne⟩
      rcases (hmem c).1 hc with rfl | hc
      · refine ⟨cr, h5, h6 ▸ e1, ?_⟩
        have : b ∈ cr.bases.map p.rtti.ti := by rw [← h7]; exact List.mem_map.2 ⟨t, ht, e2⟩
        obtain ⟨t', ht', e'⟩ := List.mem_map.1 this
        exact ⟨t', ht', e', hne⟩
      · exact ⟨c, hc, e1, t, ht, e2, hne⟩
    · rintro ⟨c, hc, h⟩
      exact ⟨c, (hmem c).2 (.inr hc), h⟩
  refine ⟨h1, h2, ?_, ?_⟩
  · intro c
    unfold Registered
    rw [h1]
    constructor
    · rintro ⟨x, hx, e⟩
      rcases (hmem x).1 hx with rfl | hx
      · exact ⟨cr, h5, h6 ▸ e⟩
      · exact ⟨x, hx, e⟩
    · rintro ⟨x, hx, e⟩
      exact ⟨x, (hmem x).2 (.inr hx), e⟩
  · intro a b
    unfold Derives
    rw [hdecl]

end OpenMethod.Spec
