import Verif.Proof.Refine

/-! # All the words of the dispatch data, and the words that calls read -/

namespace OpenMethod

open Spec

theorem emits_words {α : Type} {cap : Nat} {f : α → Res Word} {l : List α} {mem mem' : List Word} {P : Word → Prop}
    (h : l.foldlM (fun mem a => do let w ← f a; emit cap mem w) mem = .ok mem') (h0 : ∀ w ∈ mem, P w)
    (hf : ∀ a ∈ l, ∀ w, f a = .ok w → P w) : ∀ w ∈ mem', P w := by
  refine foldlM_inv (fun mem => ∀ w ∈ mem, P w) _ l mem mem' h h0 ?_
  intro mem a mem' ha hm hs
  rw [Res.bind_eq_ok] at hs
  obtain ⟨w, hw, hs⟩ := hs
  unfold emit at hs
  split at hs
  · obtain rfl := Res.ok.inj hs
    intro w' hw'
    rcases List.mem_append.1 hw' with hw' | hw'
    · exact hm w' hw'
    · simp at hw'; subst hw'; exact hf a ha w' hw
  · simp at hs

/-- Every word of the dispatch data is a cell of a dispatch table or comes from an entry of a v-table. -/
theorem writeGlobal_words {c : Compiled} {gen : Nat} {img : Image} (h : writeGlobal c gen = .ok img) (P : Word → Prop)
    (h1 : ∀ mt ∈ c.meths.zip c.tables, ∀ cell ∈ mt.2.table, ∀ f, pfOf mt.1 cell = some f → P (.pf f))
    (h2 : ∀ bases, ∀ x ∈ c.lattice.order, ∀ e ∈ c.vtbl x, ∀ w, entryWord c gen bases e = .ok w → P w) : ∀ w ∈ img.data, P w := by
  unfold writeGlobal at h
  rw [Res.bind_eq_ok] at h
  obtain ⟨s, hs, h⟩ := h
  rw [Res.bind_eq_ok] at h
  obtain ⟨v, hv, h⟩ := h
  obtain rfl := Res.ok.inj h
  dsimp only
  have hs' : ∀ w ∈ s.1, P w := by
    refine foldlM_inv (fun s => ∀ w ∈ s.1, P w) _ _ _ s hs (by simp) ?_
    intro s mt s' hmt hP hst
    unfold writeTable at hst
    split at hst
    · obtain rfl := Res.ok.inj hst; exact hP
    · rw [Res.bind_eq_ok] at hst
      obtain ⟨mem, hmem, hst⟩ := hst
      obtain rfl := Res.ok.inj hst
      have e : (fun mem cell => do
          let f ← Res.ofOption (pfOf mt.1 cell)
          emit (dataSize c) mem (.pf f)) = (fun mem cell => do
          let w ← (do let f ← Res.ofOption (pfOf mt.1 cell); return Word.pf f : Res Word)
          emit (dataSize c) mem w) := by
        funext mem cell
        cases pfOf mt.1 cell <;> rfl
      rw [e] at hmem
      refine emits_words hmem hP ?_
      intro cell hcell w hw
      rw [Res.bind_eq_ok] at hw
      obtain ⟨f, hf, hw⟩ := hw
      obtain rfl := Res.ok.inj hw
      exact h1 mt hmt cell hcell f (Res.ofOption_eq_ok.1 hf)
  refine foldlM_inv (fun s => ∀ w ∈ s.1, P w) _ _ _ v hv hs' ?_
  intro u x u' hx hP hst
  unfold writeVtbl at hst
  dsimp only at hst
  rw [Res.bind_eq_ok] at hst
  obtain ⟨mem, hmem, hst⟩ := hst
  obtain rfl := Res.ok.inj hst
  exact emits_words hmem hP (fun e he w hw => h2 s.2 x hx e he w hw)

/-- The function that a call enters was read from the dispatch data. -/
theorem resolveUni_word {rd : Ptr → Res Word} {ss : List Nat} {params : List Bool} {args : List (Res Ptr)} {w : Word}
    (h : resolveUni rd ss params args = .ok w) : ∃ q, rd q = .ok w := by
  induction params generalizing args with
  | nil => simp [resolveUni] at h
  | cons k ks ih =>
    cases args with
    | nil => cases k <;> simp [resolveUni] at h
    | cons a as =>
      cases k with
      | false => rw [resolveUni] at h; exact ih h
      | true =>
        simp only [resolveUni, Res.bind_eq_ok] at h
        obtain ⟨v, _, s, _, h⟩ := h
        exact ⟨_, h⟩

theorem resolveMultiNext_word {rd : Ptr → Res Word} {ss : List Nat} {arity : Nat} {params : List Bool} {args : List (Res Ptr)} {w : Word}
    {va : Nat} {d : Ptr} (h : resolveMultiNext rd ss arity va d params args = .ok w) : ∃ q, rd q = .ok w := by
  induction params generalizing args va d with
  | nil => simp [resolveMultiNext] at h
  | cons k ks ih =>
    cases args with
    | nil => simp [resolveMultiNext] at h
    | cons a as =>
      rw [resolveMultiNext, Res.bind_eq_ok] at h
      obtain ⟨d', _, h⟩ := h
      split at h
      · exact ⟨_, h⟩
      · exact ih h

theorem resolveMultiFirst_word {rd : Ptr → Res Word} {ss : List Nat} {arity : Nat} {params : List Bool} {args : List (Res Ptr)} {w : Word}
    (h : resolveMultiFirst rd ss arity params args = .ok w) : ∃ q, rd q = .ok w := by
  induction params generalizing args with
  | nil => simp [resolveMultiFirst] at h
  | cons k ks ih =>
    cases args with
    | nil => cases k <;> simp [resolveMultiFirst] at h
    | cons a as =>
      cases k with
      | false => rw [resolveMultiFirst] at h; exact ih h
      | true =>
        simp only [resolveMultiFirst, Res.bind_eq_ok] at h
        obtain ⟨v, _, s, _, w', _, d, _, h⟩ := h
        exact resolveMultiNext_word h

theorem resolve_word {gen : Nat} {data : List Word} {ss : List Nat} {arity : Nat} {params : List Bool} {args : List (Res Ptr)} {f : Pf}
    (h : resolve (readWord gen data) ss arity params args = .ok f) : Word.pf f ∈ data := by
  unfold resolve at h
  dsimp only at h
  have hq : ∃ q w, readWord gen data q = .ok w ∧ w.asPf = .ok f := by
    split at h <;> rw [Res.bind_eq_ok] at h <;> obtain ⟨w, hw, h⟩ := h
    · obtain ⟨q, hq⟩ := resolveUni_word hw
      exact ⟨q, w, hq, h⟩
    · obtain ⟨q, hq⟩ := resolveMultiFirst_word hw
      exact ⟨q, w, hq, h⟩
  obtain ⟨q, w, hq, h⟩ := hq
  unfold readWord at hq
  split at hq
  · rw [Res.ofOption_eq_ok] at hq
    have := List.mem_of_getElem? hq
    cases w with
    | pf g => simp only [Word.asPf, Res.ok.injEq] at h; subst h; exact this
    | idx _ => simp [Word.asPf] at h
    | addr _ => simp [Word.asPf] at h
  · simp at hq

theorem readWord_no_err {gen : Nat} {data : List Word} {q : Ptr} {e : Err} : readWord gen data q ≠ .err e := by
  unfold readWord
  split
  · cases data[q.off.toNat]? <;> simp [Res.ofOption]
  · simp

theorem ofOption_no_err {α : Type} {x : Option α} {e : Err} : Res.ofOption x ≠ .err e := by
  cases x <;> simp [Res.ofOption]

theorem resolveUni_no_err {rd : Ptr → Res Word} (hrd : ∀ q e, rd q ≠ .err e) {ss : List Nat} {ptr : Cls → Ptr} {params : List Bool}
    {args : List (Res Ptr)} {xs : List Cls} (h : ArgsFor ptr params args xs) (e : Err) : resolveUni rd ss params args ≠ .err e := by
  induction h with
  | nil => simp [resolveUni]
  | virt x _ _ =>
    intro he
    simp only [resolveUni, Res.ok_bind, Res.bind_eq_err] at he
    rcases he with he | ⟨s, _, he⟩
    · exact ofOption_no_err he
    · exact hrd _ _ he
  | other r _ ih => rw [resolveUni]; exact ih

theorem resolveMultiNext_no_err {rd : Ptr → Res Word} (hrd : ∀ q e, rd q ≠ .err e) {ss : List Nat} {arity : Nat} {ptr : Cls → Ptr}
    {params : List Bool} {args : List (Res Ptr)} {xs : List Cls} (h : ArgsFor ptr params args xs) (va : Nat) (d : Ptr) (e : Err) :
    resolveMultiNext rd ss arity va d params args ≠ .err e := by
  have hnd : ∀ va d k a, (∀ e', k = true → a ≠ .err e') → nextDispatch rd ss arity va d k a ≠ .err e := by
    intro va d k a ha he
    unfold nextDispatch at he
    split at he
    · rename_i hk
      simp only [Res.bind_eq_err] at he
      rcases he with he | ⟨_, _, he | ⟨_, _, he | ⟨_, _, he | ⟨w, _, he | ⟨_, _, he⟩⟩⟩⟩⟩
      · exact ha _ hk he
      · exact ofOption_no_err he
      · exact ofOption_no_err he
      · exact hrd _ _ he
      · cases w <;> simp [Word.asIdx] at he
      · simp at he
    · simp at he
  induction h generalizing va d with
  | nil => simp [resolveMultiNext]
  | virt x _ ih =>
    intro he
    rw [resolveMultiNext, Res.bind_eq_err] at he
    rcases he with he | ⟨_, _, he⟩
    · exact hnd _ _ _ _ (by simp) he
    · split at he
      · exact hrd _ _ he
      · exact ih _ _ he
  | other r _ ih =>
    intro he
    rw [resolveMultiNext, Res.bind_eq_err] at he
    rcases he with he | ⟨_, _, he⟩
    · exact hnd _ _ _ _ (by simp) he
    · split at he
      · exact hrd _ _ he
      · exact ih _ _ he

theorem resolveMultiFirst_no_err {rd : Ptr → Res Word} (hrd : ∀ q e, rd q ≠ .err e) {ss : List Nat} {arity : Nat} {ptr : Cls → Ptr}
    {params : List Bool} {args : List (Res Ptr)} {xs : List Cls} (h : ArgsFor ptr params args xs) (e : Err) :
    resolveMultiFirst rd ss arity params args ≠ .err e := by
  induction h with
  | nil => simp [resolveMultiFirst]
  | virt x h' _ =>
    intro he
    simp only [resolveMultiFirst, Res.ok_bind, Res.bind_eq_err] at he
    rcases he with he | ⟨_, _, he | ⟨w, _, he | ⟨_, _, he⟩⟩⟩
    · exact ofOption_no_err he
    · exact hrd _ _ he
    · cases w <;> simp [Word.asPtr] at he
    · exact resolveMultiNext_no_err hrd h' _ _ _ he
  | other r _ ih => rw [resolveMultiFirst]; exact ih

/-- Resolving a call reports no error. -/
theorem resolve_no_err {gen : Nat} {data : List Word} {ss : List Nat} {arity : Nat} {ptr : Cls → Ptr} {params : List Bool}
    {args : List (Res Ptr)} {xs : List Cls} (h : ArgsFor ptr params args xs) (e : Err) :
    resolve (readWord gen data) ss arity params args ≠ .err e := by
  intro he
  unfold resolve at he
  dsimp only at he
  have hw : ∀ (w : Word) e, w.asPf ≠ .err e := by intro w e; cases w <;> simp [Word.asPf]
  split at he <;> rw [Res.bind_eq_err] at he <;> rcases he with he | ⟨w, _, he⟩
  · exact resolveUni_no_err (fun _ _ => readWord_no_err) h e he
  · exact hw _ _ he
  · exact resolveMultiFirst_no_err (fun _ _ => readWord_no_err) h e he
  · exact hw _ _ he

/-- A call that ends in an error has read one of the two error functions of some method. -/
theorem callMethod_err {gen : Nat} {img : Image} {m : MethodInfo} {ptr : Cls → Ptr} {args : List (Res Ptr)} {xs : List Cls}
    (h : ArgsFor ptr m.params args xs) {types : List TypeId} {e : Err} (he : callMethod gen img m args types = .err e) :
    (∃ id, Word.pf (.notImplemented id) ∈ img.data ∧ e = .noOverrider (badCallArity types) (badCallTypes types)) ∨
    ∃ id, Word.pf (.ambiguous id) ∈ img.data ∧ e = .ambiguousCall (badCallArity types) (badCallTypes types) := by
  unfold callMethod at he
  rw [Res.bind_eq_err] at he
  rcases he with he | ⟨ss, _, he⟩
  · exact absurd he ofOption_no_err
  rw [Res.bind_eq_err] at he
  rcases he with he | ⟨f, hf, he⟩
  · exact absurd he (resolve_no_err h e)
  have hd := resolve_word hf
  cases f with
  | user n => simp [enter] at he
  | notImplemented id => exact .inl ⟨id, hd, by simpa [enter] using he.symm⟩
  | ambiguous id => exact .inr ⟨id, hd, by simpa [enter] using he.symm⟩

/-- Every function in the dispatch data is what a cell of a dispatch table designates. -/
theorem pf_word {n : Bool} {pl : Platform} {p : Program} {c : Compiled} (C : CompiledOk n pl p c) {gen : Nat} {img : Image}
    (h : writeGlobal c gen = .ok img) {f : Pf} (hf : Word.pf f ∈ img.data) :
    ∃ (i : Nat) (m : MethodInfo) (t : MethTable) (rs : List CellResult), p.methods[i]? = some m ∧ c.tables[i]? = some t ∧
      TableOk n pl c.lattice (toMeth p.rtti c.lattice m) t rs ∧ ∃ cell ∈ t.table, pfOf (toMeth p.rtti c.lattice m) cell = some f := by
  have hT : ∀ (i : Nat) m t, c.meths[i]? = some m → c.tables[i]? = some t → ∃ m', p.methods[i]? = some m' ∧
      m = toMeth p.rtti c.lattice m' ∧ ∃ rs, TableOk n pl c.lattice m t rs := by
    intro i m t hm ht
    obtain ⟨hlen, hR⟩ := List.forall₂_iff_get.1 C.tables
    have hm0 := hm
    rw [C.meths, List.getElem?_map, Option.map_eq_some_iff] at hm0
    obtain ⟨m', hm', he⟩ := hm0
    obtain ⟨h1, rfl⟩ := List.getElem?_eq_some_iff.1 hm
    obtain ⟨h2, rfl⟩ := List.getElem?_eq_some_iff.1 ht
    exact ⟨m', hm', he.symm, hR i h1 h2⟩
  have key := writeGlobal_words h (fun w => ∀ f, w = .pf f → ∃ (i : Nat) (m : MethodInfo) (t : MethTable) (rs : List CellResult),
      p.methods[i]? = some m ∧ c.tables[i]? = some t ∧
      TableOk n pl c.lattice (toMeth p.rtti c.lattice m) t rs ∧ ∃ cell ∈ t.table,
      pfOf (toMeth p.rtti c.lattice m) cell = some f) ?_ ?_
  · exact key _ hf f rfl
  · rintro ⟨m, t⟩ hmt cell hcell f hpf f' he
    obtain rfl := Word.pf.inj he
    obtain ⟨i, hi⟩ := List.getElem?_of_mem hmt
    rw [List.getElem?_zip_eq_some] at hi
    obtain ⟨m', hm', rfl, rs, hrs⟩ := hT i m t hi.1 hi.2
    exact ⟨i, m', t, rs, hm', hi.2, hrs, cell, hcell, hpf⟩
  · intro bases x _ e _ w hw f he
    subst he
    unfold entryWord at hw
    rw [Res.bind_eq_ok] at hw
    obtain ⟨m, hm, hw⟩ := hw
    rw [Res.bind_eq_ok] at hw
    obtain ⟨t, ht, hw⟩ := hw
    rw [Res.ofOption_eq_ok] at hm ht
    split at hw
    · rw [Res.bind_eq_ok] at hw
      obtain ⟨cell, hcell, hw⟩ := hw
      rw [Res.bind_eq_ok] at hw
      obtain ⟨g, hg, hw⟩ := hw
      rw [Res.ofOption_eq_ok] at hcell hg
      obtain rfl := Word.pf.inj (Res.ok.inj hw)
      obtain ⟨m', hm', rfl, rs, hrs⟩ := hT _ m t hm ht
      exact ⟨_, m', t, rs, hm', ht, hrs, cell, List.mem_of_getElem? hcell, hg⟩
    · split at hw
      · rw [Res.bind_eq_ok] at hw
        obtain ⟨b, _, hw⟩ := hw
        simp at hw
      · simp at hw

end OpenMethod
