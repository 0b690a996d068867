import Verif.Proof.Sizes
import Verif.Examples.Programs

/-!
# C87: sizes do not overflow

The other properties are about natural numbers. The code computes with `std::size_t`; `Verif.Model.Sizes` follows it.
-/

namespace OpenMethod.Props

open Spec Examples

variable {B : Nat} {pl : Platform} {n : Bool} {p : Program} {c : Compiled} {gen : Nat} {rep : Report} {img : Image} {m : MethodInfo} {args : List (Res Ptr)} {xs : List Cls}

/-- Number of virtual parameters of all methods. -/
def virtualParams (p : Program) : Nat := (p.methods.map fun m => m.vp.length).sum

/-- C87: if the number of words of the dispatch data is a value of `std::size_t`, nothing overflows in the tables. -/
theorem C87 (hv : p.Valid) (hc : compile pl n p = .ok c) (hB : dataSize c < B) (gen : Nat) :
    compileW B pl n p = .ok c ∧ writeGlobalW B c gen = writeGlobal c gen ∧ installW B pl n p gen = install pl n p gen := by
  have h1 := compileW_eq (B := B) hv hc hB
  refine ⟨h1, writeGlobalW_eq gen hB, ?_⟩
  unfold installW install
  rw [h1, hc, Res.ok_bind, Res.ok_bind, writeGlobalW_eq gen hB]

/-- What is stored in the tables, and in the `slots_strides` of methods, is at most the size of the dispatch data, or less than the number of virtual parameters. -/
theorem C87_stored (hv : p.Valid) (hc : compile pl n p = .ok c) :
    (∀ t ∈ c.tables, ∀ s ∈ t.strides, s ≤ dataSize c) ∧ (∀ x, ∀ e ∈ c.vtbl x, e.group < dataSize c ∨ e.group = 0) ∧
    (∀ mp, c.slots.slots mp = 0 ∨ c.slots.slots mp < virtualParams p) ∧ ∀ x, c.slots.first x + (c.vtbl x).length ≤ virtualParams p := by
  have C := compile_ok hv.acyclic hv.wf hc
  obtain ⟨rk, H⟩ := exists_slotCtx C.lat hv.acyclic c.meths (vp_order C)
  have hs : c.slots = assignSlots pl c.lattice (usedByVp c.meths) := by
    unfold compile at hc
    simp only [Res.bind_eq_ok, Res.pure_eq, Res.ok.injEq] at hc
    obtain ⟨L, _, ms, _, vtbl, _, ts, _, rfl⟩ := hc
    rfl
  have hV : paramsOf (usedByVp c.meths) c.lattice.order ≤ virtualParams p := by
    have h1 : paramsOf (usedByVp c.meths) c.lattice.order = (c.lattice.order.flatMap (usedByVp c.meths)).length := by
      rw [List.length_flatMap]; rfl
    have h2 : (c.lattice.order.flatMap (usedByVp c.meths)).Nodup := by
      refine List.nodup_flatMap.2 ⟨fun x _ => H.used_nodup x, C.lat.nodup_order.imp fun {a b} hab mp h3 h4 => hab (H.used_unique a b mp h3 h4)⟩
    have h3 : c.lattice.order.flatMap (usedByVp c.meths) ⊆ (allParams c.meths).map (·.1) := by
      intro mp hmp
      obtain ⟨x, _, hx⟩ := List.mem_flatMap.1 hmp
      obtain ⟨y, hy, rfl⟩ := List.mem_map.1 hx
      exact List.mem_map_of_mem (List.mem_filter.1 hy).1
    have h4 := (List.subperm_of_subset h2 h3).length_le
    have h5 : (allParams c.meths).length = virtualParams p := by
      unfold allParams virtualParams
      rw [List.length_flatMap, C.meths]
      generalize p.methods = ms
      have : ∀ (ms : List MethodInfo) (k : Nat), (((ms.map (toMeth p.rtti c.lattice)).zipIdx k).map fun mi => (mi.1.vp.zipIdx.map fun vk => ((mi.2, vk.2), vk.1)).length).sum =
          (ms.map fun m => m.vp.length).sum := by
        intro ms
        induction ms with
        | nil => intro k; rfl
        | cons m ms ih =>
          intro k
          rw [List.map_cons, List.zipIdx_cons, List.map_cons, List.sum_cons, ih, List.map_cons, List.sum_cons]
          simp [toMeth]
      exact this ms 0
    rw [List.length_map, h5] at h4
    omega
  obtain ⟨h1, h2⟩ := assignSlots_bound H pl
  rw [← hs] at h1 h2
  refine ⟨fun t ht s hs => ((tables_bounds C t ht).2.1 s hs).trans (table_le_data ht), fun x e he => ?_, fun mp => (h1 mp).imp_right fun h => h.trans_le hV, fun x => ?_⟩
  · rcases C.entries x e he with rfl | ⟨m, v, hm, hvk, hg⟩
    · exact .inr rfl
    · left
      obtain ⟨t, rs, ht, hT⟩ := C.table hm
      refine hg.trans_le ((le_trans ((table_bounds C hm ht).2.2.1 _ ?_) (table_le_data (List.mem_of_getElem? ht))))
      rw [hT.groups]
      exact List.mem_of_getElem? ((groupsFrom_get pl c.lattice m e.vp _).2 ⟨v, hvk, rfl⟩)
  · rw [C.vlen]
    exact (h2 x).trans hV

theorem bind_cases {α β : Type} {x : Res α} {f : α → Res β} (hx : (∃ a, x = .ok a) ∨ x = .ub) (hf : ∀ a, (∃ b, f a = .ok b) ∨ f a = .ub) :
    (∃ b, (x >>= f) = .ok b) ∨ (x >>= f) = .ub := by
  rcases hx with ⟨a, rfl⟩ | rfl
  · exact hf a
  · exact .inr rfl

theorem option_cases {α : Type} (o : Option α) : (∃ a, Res.ofOption o = .ok a) ∨ Res.ofOption o = .ub := by
  cases o with
  | none => exact .inr rfl
  | some a => exact .inl ⟨a, rfl⟩

theorem read_cases (gen : Nat) (data : List Word) (q : Ptr) : (∃ w, readWord gen data q = .ok w) ∨ readWord gen data q = .ub := by
  unfold readWord
  split
  · exact option_cases _
  · exact .inr rfl

theorem uni_cases {ptr : Cls → Ptr} {data : List Word} (ss : List Nat) {ks : List Bool} (h : ArgsFor ptr ks args xs) :
    (∃ w, resolveUni (readWord gen data) ss ks args = .ok w) ∨ resolveUni (readWord gen data) ss ks args = .ub := by
  induction h with
  | nil => exact .inr rfl
  | virt x _ _ => exact bind_cases (.inl ⟨_, rfl⟩) fun _ => bind_cases (option_cases _) fun _ => read_cases _ _ _
  | other r _ ih => exact ih

theorem next_cases {ptr : Cls → Ptr} {data : List Word} (ss : List Nat) (arity : Nat) {ks : List Bool} (h : ArgsFor ptr ks args xs) : ∀ (va : Nat) (d : Ptr),
    (∃ w, resolveMultiNext (readWord gen data) ss arity va d ks args = .ok w) ∨ resolveMultiNext (readWord gen data) ss arity va d ks args = .ub := by
  induction h with
  | nil => intro va d; exact .inr rfl
  | virt x _ ih =>
    intro va d
    rw [resolveMultiNext]
    refine bind_cases ?_ fun d' => ?_
    · unfold nextDispatch
      refine bind_cases (.inl ⟨_, rfl⟩) fun _ => bind_cases (option_cases _) fun _ => bind_cases (option_cases _) fun _ => bind_cases (read_cases _ _ _) fun w => ?_
      cases w
      all_goals first | exact .inr rfl | exact .inl ⟨_, rfl⟩
    · split
      · exact read_cases _ _ _
      · exact ih _ _
  | other r _ ih =>
    intro va d
    rw [resolveMultiNext]
    refine bind_cases (.inl ⟨_, rfl⟩) fun d' => ?_
    split
    · exact read_cases _ _ _
    · exact ih _ _

theorem first_cases {ptr : Cls → Ptr} {data : List Word} (ss : List Nat) (arity : Nat) {ks : List Bool} (h : ArgsFor ptr ks args xs) :
    (∃ w, resolveMultiFirst (readWord gen data) ss arity ks args = .ok w) ∨ resolveMultiFirst (readWord gen data) ss arity ks args = .ub := by
  induction h with
  | nil => exact .inr rfl
  | virt x h _ =>
    refine bind_cases (.inl ⟨_, rfl⟩) fun _ => bind_cases (option_cases _) fun _ => bind_cases (read_cases _ _ _) fun w => bind_cases ?_ fun _ => next_cases _ _ h _ _
    cases w
    all_goals first | exact .inr rfl | exact .inl ⟨_, rfl⟩
  | other r _ ih => exact ih

/-- Calls: products do not overflow, and the pointer into the dispatch table never leaves the vector, not even temporarily. This holds for all calls that do not have undefined
behaviour for another reason: see C11 and finding 1. -/
theorem C87_call (h : install pl n p gen = .ok (rep, img)) (hB : img.data.length ≤ B) (hc : AnyCall p gen img m args xs) (types : List TypeId)
    (hu : callMethod gen img m args types ≠ .ub) : callMethodW B gen img m args types = callMethod gen img m args types := by
  have ha : Addrs img.data := by
    unfold install at h
    simp only [Res.bind_eq_ok, Res.pure_eq, Res.ok.injEq, Prod.mk.injEq] at h
    obtain ⟨c, _, img', h1, _, rfl⟩ := h
    exact writeGlobal_addrs h1
  unfold callMethod at hu ⊢
  unfold callMethodW
  cases hss : slotsStridesAt img m.id with
  | none => rw [hss] at hu; exact absurd rfl hu
  | some ss =>
    rw [hss] at hu
    simp only [Res.ofOption_some, Res.ok_bind] at hu ⊢
    unfold resolve at hu ⊢
    dsimp only at hu ⊢
    by_cases h1 : m.arity = 1
    · simp only [h1, if_true] at hu ⊢
      rcases uni_cases (gen := gen) (data := img.data) ss hc.args with ⟨w, hw⟩ | hw
      · rw [hw]; rfl
      · rw [hw]; rfl
    · simp only [h1, if_false] at hu ⊢
      rcases first_cases (gen := gen) (data := img.data) ss m.arity hc.args with ⟨w, hw⟩ | hw
      · rw [hw, resolveMultiFirstW_eq hB ha _ hw]; rfl
      · rw [hw] at hu
        exact absurd rfl hu

/-! ## Examples -/

theorem zoo_size {c : Compiled} (h : compile .std false zoo = .ok c) : dataSize c = 31 := by
  have : (match compile .std false zoo with | .ok c => dataSize c | _ => 0) = 31 := by decide +kernel
  rwa [h] at this

/-- `C87` and `C87_stored` for `zoo`. -/
example : zoo.Valid ∧ ∃ c, compile .std false zoo = .ok c ∧ dataSize c < 2 ^ 64 ∧ virtualParams zoo = 4 := by
  refine ⟨zoo_valid, ?_⟩
  have hk : (compile .std false zoo matches .ok _) := by decide +kernel
  cases h : compile .std false zoo with
  | ok c => exact ⟨c, rfl, by rw [zoo_size h]; decide, by decide +kernel⟩
  | err e => rw [h] at hk; cases hk
  | ub => rw [h] at hk; cases hk

/-- The condition of `C87` is exact here: with one value less, the size of the vector overflows, and the code writes past its end. -/
example : (installW 32 .std false zoo 0 matches .ok _) ∧ installW 31 .std false zoo 0 matches .ub := by decide +kernel

/-- `C87_call`, for a method with two virtual parameters. -/
example : ∃ rep img args, install .std false zoo 0 = .ok (rep, img) ∧ img.data.length ≤ 2 ^ 64 ∧ AnyCall zoo 0 img meet args [4, 4] ∧
    callMethod 0 img meet args [] = .ok 22 ∧ callMethodW (2 ^ 64) 0 img meet args [] = .ok 22 := by
  obtain ⟨rep, img, args, hv, hi, hc, hr⟩ := run_any (p := zoo) (m := meet) (xs := [4, 4]) (r := .ok 22) (by decide +kernel) (by decide +kernel)
    (by decide +kernel)
  have hl : img.data.length ≤ 2 ^ 64 := by
    have h := hi
    unfold install at h
    simp only [Res.bind_eq_ok, Res.pure_eq, Res.ok.injEq, Prod.mk.injEq] at h
    obtain ⟨c, h1, img', h2, _, rfl⟩ := h
    obtain ⟨_, _, h3, I⟩ := writeGlobal_ok (compile_ok hv.acyclic hv.wf h1) 0
    rw [h2] at h3
    obtain rfl := Res.ok.inj h3
    have := I.size
    rw [zoo_size h1] at this
    exact this.trans (by decide)
  exact ⟨rep, img, args, hi, hl, hc, hr, (C87_call hi hl hc [] (by rw [hr]; simp)).trans hr⟩

end OpenMethod.Props
