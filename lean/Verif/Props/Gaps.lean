import Verif.Props.Dispatch
import Verif.Props.Accept
import Verif.Proof.Gaps

/-!
# C05: exactly the methods that are called right

`C05_refuted` is about one program. Here: which positions of the virtual parameters are harmless.
-/

namespace OpenMethod.Props

open Spec Examples

variable {pl : Platform} {n : Bool} {p : Program} {gen : Nat} {rep : Report} {img : Image} {m : MethodInfo} {args args' : List (Res Ptr)} {xs : List Cls}

/-- If there is another parameter between two virtual ones, the last virtual argument is ignored: by all calls, of any method, in any program. -/
theorem C05_last (hv : p.Valid) (hn : ¬ Contiguous m.params) {x x' : Cls} (hc : AnyCall p gen img m args (xs ++ [x])) (hc' : AnyCall p gen img m args' (xs ++ [x']))
    (types : List TypeId) : callMethod gen img m args types = callMethod gen img m args' types := by
  have hk := (hv.wf m hc.mem).kinds
  unfold callMethod resolve
  have h1 : m.arity ≠ 1 := by
    intro h1
    rw [MethodInfo.arity] at h1
    rw [h1] at hk
    obtain ⟨a, b, e, ha, hb⟩ : ∃ a b, m.params = a ++ true :: b ∧ true ∉ a ∧ true ∉ b := by
      obtain ⟨a, b, e, ha⟩ := List.eq_append_cons_of_mem (List.count_pos_iff.1 (by omega : 0 < m.params.count true))
      refine ⟨a, b, e, ha, fun hb => ?_⟩
      rw [e, List.count_append, List.count_cons_self] at hk
      have := List.count_pos_iff.2 hb
      omega
    refine hn ⟨a.length, 1, b.length, ?_⟩
    have ea : a = List.replicate a.length false := List.eq_replicate_iff.2 ⟨rfl, fun c hc => by cases c; rfl; exact absurd hc ha⟩
    have eb : b = List.replicate b.length false := List.eq_replicate_iff.2 ⟨rfl, fun c hc => by cases c; rfl; exact absurd hc hb⟩
    rw [e, ← ea, ← eb]
    simp
  simp only [h1, if_false]
  refine resolveMultiFirst_same.bind_congr_res fun ss => ?_
  rw [resolveMultiFirst_same (arity := m.arity) m.params args args' xs x x' hc.args hc'.args hk hn]

/-- Methods with these parameters are called right in all programs, if nothing else is wrong: the order of registration, and multiple inheritance. -/
def RightFor (params : List Bool) : Prop :=
  ∀ (pl : Platform) (p : Program) (gen : Nat) (rep : Report) (img : Image) (m : MethodInfo) (args : List (Res Ptr)) (xs : List Cls) (types : List TypeId),
    p.Valid → install pl false p gen = .ok (rep, img) → AnyCall p gen img m args xs → m.params = params → ArgsSafe p (classesOf p m.vp) xs → (∀ x ∈ xs, SingleInheritance p x) →
    ∃ r, Expected p m xs r ∧ Does m (callMethod gen img m args types) r

/-! ## A program for each list of parameters -/

/-- Classes 1, and 2 derived from it; `k + 1` virtual parameters of class 1, and an overrider for class 2 in the last position. -/
def lastMeth (params : List Bool) (k : Nat) : MethodInfo :=
  meth 0 params (List.replicate k 1 ++ [1]) [ov (List.replicate k 1 ++ [1]) 11, ov (List.replicate k 1 ++ [2]) 12]

def lastProg (params : List Bool) (k : Nat) : Program := prog [cls 1 [], cls 2 [1]] [lastMeth params k]

variable {params : List Bool} {k : Nat}

theorem last_base {d b : Cls} : DeclaredBase (lastProg params k) d b ↔ d = 2 ∧ b = 1 := by
  constructor
  · rintro ⟨cr, hcr, rfl, t, ht, rfl, hne⟩
    simp only [lastProg, prog, List.mem_cons, List.not_mem_nil, or_false] at hcr
    rcases hcr with rfl | rfl
    · simp [cls, ids] at ht
      subst ht
      exact absurd rfl hne
    · simp [cls, ids] at ht
      rcases ht with rfl | rfl
      · exact absurd rfl hne
      · exact ⟨rfl, rfl⟩
  · rintro ⟨rfl, rfl⟩
    exact ⟨cls 2 [1], by simp [lastProg, prog], rfl, 1#64, by simp [cls, ids], rfl, by decide⟩

theorem last_derives {a b : Cls} : Derives (lastProg params k) a b ↔ a = b ∨ a = 2 ∧ b = 1 := by
  constructor
  · intro h
    induction h with
    | refl => exact .inl rfl
    | tail _ h ih =>
      obtain ⟨rfl, rfl⟩ := last_base.1 h
      rcases ih with rfl | ⟨_, h⟩
      · exact .inr ⟨rfl, rfl⟩
      · cases h
  · rintro (rfl | ⟨rfl, rfl⟩)
    · exact .refl
    · exact .single (last_base.2 ⟨rfl, rfl⟩)

theorem last_classes (x : Nat) (hx : x < 2 ^ 64) : classesOf (lastProg params k) (ids (List.replicate k 1 ++ [x])) = List.replicate k 1 ++ [x] := by
  simp only [classesOf, ids, List.map_append, List.map_replicate, List.map_cons, List.map_nil]
  show List.replicate k 1 ++ [(BitVec.ofNat 64 x).toNat] = _
  rw [BitVec.toNat_ofNat, Nat.mod_eq_of_lt hx]

theorem last_valid (hk : params.count true = k + 1) : (lastProg params k).Valid where
  acyclic a b h1 h2 := by
    rw [last_derives] at h1 h2
    rcases h1 with h1 | ⟨rfl, rfl⟩
    · exact h1
    · rcases h2 with h2 | ⟨h2, _⟩
      · exact h2.symm
      · cases h2
  wf m hm := by
    obtain rfl := List.mem_singleton.1 hm
    refine ⟨by simp [lastMeth, meth, ids], by simp [lastMeth, meth, ids, hk], fun o ho => ?_⟩
    simp only [lastMeth, meth, List.mem_cons, List.not_mem_nil, or_false] at ho
    rcases ho with rfl | rfl <;> simp [lastMeth, meth, ids, ov]
  ids := by simp [lastProg, prog]

theorem last_registered {c : Cls} (h : c = 1 ∨ c = 2) : Registered (lastProg params k) c := by
  rcases h with rfl | rfl
  · exact ⟨cls 1 [], by simp [lastProg, prog], rfl⟩
  · exact ⟨cls 2 [1], by simp [lastProg, prog], rfl⟩

theorem last_ids {t : TypeId} {x : Nat} (hx : x = 1 ∨ x = 2) (ht : t ∈ ids (List.replicate k 1 ++ [x])) : t.toNat = 1 ∨ t.toNat = 2 := by
  simp only [ids, List.mem_map, List.mem_append, List.mem_replicate, List.mem_singleton] at ht
  obtain ⟨a, ⟨_, rfl⟩ | rfl, rfl⟩ := ht
  · exact .inl rfl
  · rcases hx with rfl | rfl
    · exact .inl rfl
    · exact .inr rfl

theorem last_installs (hk : params.count true = k + 1) (pl : Platform) (gen : Nat) : ∃ rep img, install pl false (lastProg params k) gen = .ok (rep, img) := by
  refine (C20_accepted (last_valid hk)).2 ⟨?_, ?_⟩
  · rintro t (⟨cr, hcr, ht⟩ | ⟨m, hm, h⟩)
    · simp only [lastProg, prog, List.mem_cons, List.not_mem_nil, or_false] at hcr
      rcases hcr with rfl | rfl
      · simp [cls, ids] at ht
        subst ht
        exact last_registered (.inl rfl)
      · simp [cls, ids] at ht
        rcases ht with rfl | rfl
        · exact last_registered (.inr rfl)
        · exact last_registered (.inl rfl)
    · obtain rfl := List.mem_singleton.1 hm
      rcases h with h | ⟨o, ho, h | ⟨_, hc, _⟩⟩
      · exact last_registered (last_ids (.inl rfl) h)
      · simp only [lastMeth, meth, List.mem_cons, List.not_mem_nil, or_false] at ho
        rcases ho with rfl | rfl
        · exact last_registered (last_ids (.inl rfl) h)
        · exact last_registered (last_ids (.inr rfl) h)
      · exact absurd rfl hc
  · rintro m o i t v ⟨hm, ho, h1, h2, h3⟩
    obtain rfl := List.mem_singleton.1 hm
    refine h3 (last_derives.2 ?_)
    have hv : v.toNat = 1 := by
      have := List.mem_of_getElem? h2
      simp only [lastMeth, meth, ids, List.mem_map, List.mem_append, List.mem_replicate, List.mem_singleton] at this
      obtain ⟨a, ⟨_, rfl⟩ | rfl, rfl⟩ := this <;> rfl
    have ht : t.toNat = 1 ∨ t.toNat = 2 := by
      have := List.mem_of_getElem? h1
      simp only [lastMeth, meth, List.mem_cons, List.not_mem_nil, or_false] at ho
      rcases ho with rfl | rfl
      · exact last_ids (.inl rfl) this
      · exact last_ids (.inr rfl) this
    rcases ht with ht | ht
    · exact .inl (ht.trans hv.symm)
    · exact .inr ⟨ht, hv⟩

theorem last_accepts {x y : Cls} (h : Derives (lastProg params k) y x) : Accepts (lastProg params k) (List.replicate k 1 ++ [x]) (List.replicate k 1 ++ [y]) := by
  induction k with
  | zero => exact .cons h .nil
  | succ k ih => exact .cons .refl (ih (last_derives.2 (last_derives.1 h)))

theorem last_accepts_iff {x y : Cls} : Accepts (lastProg params k) (List.replicate k 1 ++ [x]) (List.replicate k 1 ++ [y]) ↔ Derives (lastProg params k) y x := by
  refine ⟨fun h => ?_, last_accepts⟩
  have h1 := (List.forall₂_iff_get.1 h).2 k (by simp) (by simp)
  simpa using h1

theorem last_applicable {y : Cls} {i : Nat} : ApplicableAt (lastProg params k) (lastMeth params k) (List.replicate k 1 ++ [y]) i ↔
    i = 0 ∧ (y = 1 ∨ y = 2) ∨ i = 1 ∧ y = 2 := by
  have key : ∀ x : Nat, x < 2 ^ 64 → ∀ pf : Nat, Applicable (lastProg params k) (ov (List.replicate k 1 ++ [x]) pf) (List.replicate k 1 ++ [y]) ↔ y = x ∨ y = 2 ∧ x = 1 := by
    intro x hx pf
    rw [Applicable]
    show Accepts _ (classesOf _ (ids _)) _ ↔ _
    rw [last_classes x hx, last_accepts_iff, last_derives]
  constructor
  · rintro ⟨o, ho, h⟩
    match i, ho with
    | 0, ho =>
      obtain rfl := Option.some.inj ho
      exact .inl ⟨rfl, ((key 1 (by decide) 11).1 h).imp_right (·.1)⟩
    | 1, ho =>
      obtain rfl := Option.some.inj ho
      rcases (key 2 (by decide) 12).1 h with h | ⟨_, h⟩
      · exact .inr ⟨rfl, h⟩
      · cases h
  · rintro (⟨rfl, h⟩ | ⟨rfl, rfl⟩)
    · exact ⟨_, rfl, (key 1 (by decide) 11).2 (h.imp_right fun h => ⟨h, rfl⟩)⟩
    · exact ⟨_, rfl, (key 2 (by decide) 12).2 (.inl rfl)⟩

theorem last_get (x : Cls) : (List.replicate k 1 ++ [x])[k]? = some x := by
  rw [List.getElem?_append_right (by simp)]
  simp

theorem last_more : MoreSpecific (lastProg params k) (ov (List.replicate k 1 ++ [2]) 12) (ov (List.replicate k 1 ++ [1]) 11) := by
  refine ⟨⟨k, 2, 1, ?_, ?_, last_derives.2 (.inr ⟨rfl, rfl⟩), by decide⟩, ?_⟩
  · show (classesOf _ (ids _))[k]? = _
    rw [last_classes 2 (by omega), last_get]
  · show (classesOf _ (ids _))[k]? = _
    rw [last_classes 1 (by omega), last_get]
  · intro i x y hx hy hd
    have h1 : y = 1 := by
      have := List.mem_of_getElem? hy
      rw [show classesOf (lastProg params k) (ov (List.replicate k 1 ++ [1]) 11).vp = List.replicate k 1 ++ [1] from last_classes 1 (by omega)] at this
      simp only [List.mem_append, List.mem_replicate, List.mem_singleton] at this
      rcases this with ⟨_, h⟩ | h <;> exact h
    rcases last_derives.1 hd.1 with h | ⟨h, _⟩
    · exact hd.2 h
    · rw [h1] at h; cases h

theorem last_expected_one : Expected (lastProg params k) (lastMeth params k) (List.replicate k 1 ++ [1]) (.run 0) := by
  have h : ∀ i, ApplicableAt (lastProg params k) (lastMeth params k) (List.replicate k 1 ++ [1]) i → i = 0 := by
    intro i hi
    rcases last_applicable.1 hi with ⟨h, _⟩ | ⟨_, h⟩
    · exact h
    · cases h
  refine ⟨⟨last_applicable.2 (.inl ⟨rfl, .inl rfl⟩), fun j hj hd => ?_⟩, fun j hj => h j hj.1⟩
  obtain rfl := h j hj
  obtain ⟨a, b, ha, hb, ⟨i, x, y, hx, hy, hd⟩, hn⟩ := hd
  rw [ha] at hb
  obtain rfl := Option.some.inj hb
  rw [hx] at hy
  exact hd.2 (Option.some.inj hy)

theorem last_expected_two : Expected (lastProg params k) (lastMeth params k) (List.replicate k 1 ++ [2]) (.run 1) := by
  have h0 : ApplicableAt (lastProg params k) (lastMeth params k) (List.replicate k 1 ++ [2]) 0 := last_applicable.2 (.inl ⟨rfl, .inr rfl⟩)
  have h1 : ApplicableAt (lastProg params k) (lastMeth params k) (List.replicate k 1 ++ [2]) 1 := last_applicable.2 (.inr ⟨rfl, rfl⟩)
  have hd : Dominates (lastProg params k) (lastMeth params k) 1 0 := ⟨_, _, rfl, rfl, last_more⟩
  refine ⟨⟨h1, fun j hj hj1 => ?_⟩, fun j hj => ?_⟩
  · rcases last_applicable.1 hj with ⟨rfl, _⟩ | ⟨rfl, _⟩
    · obtain ⟨a, b, ha, hb, h⟩ := hj1
      obtain rfl := Option.some.inj ha
      obtain rfl := Option.some.inj hb
      obtain ⟨⟨i, x, y, hx, hy, hxy⟩, hn⟩ := last_more (params := params) (k := k)
      obtain ⟨⟨i', x', y', hx', hy', hxy'⟩, hn'⟩ := h
      exact hn i' y' x' hy' hx' hxy'
    · obtain ⟨a, b, ha, hb, ⟨i, x, y, hx, hy, hd⟩, hn⟩ := hj1
      rw [ha] at hb
      obtain rfl := Option.some.inj hb
      rw [hx] at hy
      exact hd.2 (Option.some.inj hy)
  · rcases last_applicable.1 hj.1 with ⟨rfl, _⟩ | ⟨rfl, _⟩
    · exact absurd hd (hj.2 1 h1)
    · rfl

theorem last_call (hk : params.count true = k + 1) {y : Cls} (hy : y = 1 ∨ y = 2) (gen : Nat) (img : Image) :
    AnyCall (lastProg params k) gen img (lastMeth params k) (Check.mkArgs (img.ptr gen) params (List.replicate k 1 ++ [y])) (List.replicate k 1 ++ [y]) ∧
    ArgsSafe (lastProg params k) (classesOf (lastProg params k) (lastMeth params k).vp) (List.replicate k 1 ++ [y]) ∧
    ∀ x ∈ List.replicate k 1 ++ [y], SingleInheritance (lastProg params k) x := by
  have hvp : classesOf (lastProg params k) (lastMeth params k).vp = List.replicate k 1 ++ [1] := last_classes 1 (by omega)
  have hacc : Accepts (lastProg params k) (classesOf (lastProg params k) (lastMeth params k).vp) (List.replicate k 1 ++ [y]) := by
    rw [hvp]
    exact last_accepts (last_derives.2 (hy.imp id fun h => ⟨h, rfl⟩))
  have hpc : ∀ c, ParamClass (lastProg params k) c → c = 1 := by
    rintro c ⟨m, hm, hc⟩
    obtain rfl := List.mem_singleton.1 hm
    rw [hvp] at hc
    simp only [List.mem_append, List.mem_replicate, List.mem_singleton] at hc
    rcases hc with ⟨_, h⟩ | h <;> exact h
  refine ⟨⟨List.mem_singleton_self _, Check.mkArgs_for _ params _ (by simpa using hk), hacc, fun a ha => ?_⟩, ?_, ?_⟩
  · simp only [List.mem_append, List.mem_replicate, List.mem_singleton] at ha
    rcases ha with ⟨_, rfl⟩ | rfl
    · exact last_registered (.inl rfl)
    · exact last_registered hy
  · have h1 : ∀ b ∈ classesOf (lastProg params k) (lastMeth params k).vp, b = 1 := fun b hb => hpc b ⟨_, List.mem_singleton_self _, hb⟩
    have h2 : ∀ {bs xs : List Cls}, (∀ b ∈ bs, b = 1) → Accepts (lastProg params k) bs xs → ArgsSafe (lastProg params k) bs xs := by
      intro bs xs hb h
      induction h with
      | nil => exact .nil
      | cons _ _ ih =>
        refine .cons (fun c hc _ => ?_) (ih fun b h => hb b (List.mem_cons_of_mem _ h))
        rw [hpc c hc, hb _ List.mem_cons_self]
        exact ⟨.inl .refl, .inl .refl⟩
    exact h2 h1 hacc
  · intro x _ a b ha hb
    rw [last_derives] at ha hb
    rcases ha with rfl | ⟨rfl, rfl⟩
    · exact .inl (last_derives.2 hb)
    · rcases hb with rfl | ⟨_, rfl⟩
      · exact .inr (last_derives.2 (.inr ⟨rfl, rfl⟩))
      · exact .inl .refl

/-- C05, exactly: the positions of virtual parameters are harmless if and only if the virtual parameters are contiguous. -/
theorem C05_exact : RightFor params ↔ Contiguous params := by
  constructor
  · intro h
    by_contra hn
    obtain ⟨k, hk⟩ : ∃ k, params.count true = k + 1 := by
      rcases hc : params.count true with _ | k
      · refine absurd ⟨params.length, 0, 0, ?_⟩ hn
        simp only [List.replicate_zero, List.append_nil]
        refine List.eq_replicate_iff.2 ⟨rfl, fun b hb => ?_⟩
        cases b with
        | false => rfl
        | true => exact absurd hb (List.count_eq_zero.1 hc)
      · exact ⟨k, rfl⟩
    have hv := last_valid hk
    obtain ⟨rep, img, hi⟩ := last_installs hk .std 0
    obtain ⟨c1, s1, i1⟩ := last_call hk (.inl rfl) 0 img
    obtain ⟨c2, s2, i2⟩ := last_call hk (.inr rfl) 0 img
    obtain ⟨r1, e1, d1⟩ := h _ _ _ _ _ _ _ _ [] hv hi c1 rfl s1 i1
    obtain ⟨r2, e2, d2⟩ := h _ _ _ _ _ _ _ _ [] hv hi c2 rfl s2 i2
    rw [← C05_last hv hn c1 c2 []] at d2
    rw [Expected.unique e1 last_expected_one] at d1
    rw [Expected.unique e2 last_expected_two] at d2
    obtain ⟨o1, h1, d1⟩ := d1
    obtain ⟨o2, h2, d2⟩ := d2
    obtain rfl := Option.some.inj h1
    obtain rfl := Option.some.inj h2
    rw [d1] at d2
    exact absurd (Res.ok.inj d2) (by simp [ov])
  · intro hc pl p gen rep img m args xs types hv hi hcall hm hs h1
    exact C02_partial hv hi ⟨hcall.mem, hcall.args, hcall.callable, hs, .inr (hm ▸ hc)⟩ h1 types

/-- Three positions: the first is right, the others are not. -/
example : RightFor [false, true, true, false] ∧ ¬ RightFor [true, false, true] ∧ ¬ RightFor [true, false, true, true] := by
  refine ⟨C05_exact.2 ⟨1, 2, 1, rfl⟩, fun h => ?_, fun h => ?_⟩
  · obtain ⟨a, n, b, h⟩ := C05_exact.1 h
    rcases a with _ | a
    · rcases n with _ | _ | n <;> rcases b with _ | _ | b <;> simp [List.replicate_succ] at h
    · simp [List.replicate_succ] at h
  · obtain ⟨a, n, b, h⟩ := C05_exact.1 h
    rcases a with _ | a
    · rcases n with _ | _ | n <;> rcases b with _ | _ | b <;> simp [List.replicate_succ] at h
    · simp [List.replicate_succ] at h

/-- `C05_last`: the hypotheses can be met, with a call that is then wrong. -/
example : ∃ rep img, install .std false (lastProg [true, false, true, true] 2) 0 = .ok (rep, img) ∧ (lastProg [true, false, true, true] 2).Valid ∧
    AnyCall (lastProg [true, false, true, true] 2) 0 img (lastMeth [true, false, true, true] 2) (Check.mkArgs (img.ptr 0) [true, false, true, true] [1, 1, 1]) ([1, 1] ++ [1]) ∧
    AnyCall (lastProg [true, false, true, true] 2) 0 img (lastMeth [true, false, true, true] 2) (Check.mkArgs (img.ptr 0) [true, false, true, true] [1, 1, 2]) ([1, 1] ++ [2]) := by
  have hk : [true, false, true, true].count true = 2 + 1 := rfl
  obtain ⟨rep, img, hi⟩ := last_installs hk .std 0
  exact ⟨rep, img, hi, last_valid hk, (last_call hk (.inl rfl) 0 img).1, (last_call hk (.inr rfl) 0 img).1⟩

/-! ## A correction

`resolve_multi_next` counts all the parameters that it is given (core.hpp 2545-2558). If it counted the virtual ones only, nothing else would have to change. -/

/-- `resolve_multi_next`, corrected: `VirtualArg` and the end of the recursion only depend on virtual parameters. -/
def resolveMultiNextFixed (rd : Ptr → Res Word) (ss : List Nat) (arity : Nat) : Nat → Ptr → List Bool → List (Res Ptr) → Res Word
  | va, dispatch, true :: ks, a :: as => do
    let dispatch ← nextDispatch rd ss arity va dispatch true a
    if va + 1 = arity then rd dispatch
    else resolveMultiNextFixed rd ss arity (va + 1) dispatch ks as
  | va, dispatch, false :: ks, _ :: as => resolveMultiNextFixed rd ss arity va dispatch ks as
  | _, _, _, _ => .ub

def resolveMultiFirstFixed (rd : Ptr → Res Word) (ss : List Nat) (arity : Nat) : List Bool → List (Res Ptr) → Res Word
  | true :: ks, a :: as => do
    let vtbl ← a
    let slot ← Res.ofOption ss[0]?
    let w ← rd (vtbl.add slot)
    let dispatch ← w.asPtr
    resolveMultiNextFixed rd ss arity 1 dispatch ks as
  | false :: ks, _ :: as => resolveMultiFirstFixed rd ss arity ks as
  | _, _ => .ub

def callMethodFixed (gen : Nat) (img : Image) (m : MethodInfo) (args : List (Res Ptr)) (types : List TypeId) : Res Nat := do
  let ss ← Res.ofOption (slotsStridesAt img m.id)
  let w ← if m.arity = 1 then resolveUni (readWord gen img.data) ss m.params args
    else resolveMultiFirstFixed (readWord gen img.data) ss m.arity m.params args
  let f ← w.asPf
  enter f types

theorem nextFixed {ptr : Cls → Ptr} {rd : Ptr → Res Word} {ss : List Nat} {arity : Nat} {ks : List Bool} {as : List (Res Ptr)} (h : ArgsFor ptr ks as xs) :
    ∀ va d, resolveMultiNextFixed rd ss arity va d ks as = resolveMultiNext rd ss arity va d (List.replicate xs.length true) (xs.map fun x => .ok (ptr x)) := by
  induction h with
  | nil => intro va d; rfl
  | virt x _ ih =>
    intro va d
    simp only [resolveMultiNextFixed, List.length_cons, List.replicate_succ, List.map_cons, resolveMultiNext, ih]
  | other r _ ih => intro va d; exact ih va d

theorem firstFixed {ptr : Cls → Ptr} {rd : Ptr → Res Word} {ss : List Nat} {arity : Nat} {ks : List Bool} {as : List (Res Ptr)} (h : ArgsFor ptr ks as xs) :
    resolveMultiFirstFixed rd ss arity ks as = resolveMultiFirst rd ss arity (List.replicate xs.length true) (xs.map fun x => .ok (ptr x)) := by
  induction h with
  | nil => rfl
  | virt x h _ => simp only [resolveMultiFirstFixed, List.length_cons, List.replicate_succ, List.map_cons, resolveMultiFirst, nextFixed h]
  | other r _ ih => exact ih

theorem uniFixed {ptr : Cls → Ptr} {rd : Ptr → Res Word} {ss : List Nat} {ks : List Bool} {as : List (Res Ptr)} (h : ArgsFor ptr ks as xs) :
    resolveUni rd ss ks as = resolveUni rd ss (List.replicate xs.length true) (xs.map fun x => .ok (ptr x)) := by
  induction h with
  | nil => rfl
  | virt x h _ => rfl
  | other r _ ih => exact ih

theorem argsFor_all (ptr : Cls → Ptr) (xs : List Cls) : ArgsFor ptr (List.replicate xs.length true) (xs.map fun x => .ok (ptr x)) xs := by
  induction xs with
  | nil => exact .nil
  | cons x xs ih => exact .virt x ih

/-- With this correction, calls do what the documentation says, wherever the virtual parameters are. -/
theorem C05_corrected (hv : p.Valid) (h : install pl false p gen = .ok (rep, img)) (hc : AnyCall p gen img m args xs) (ho : ArgsSafe p (classesOf p m.vp) xs)
    (hs : Settled p m xs) (types : List TypeId) : ∃ r, Expected p m xs r ∧ Does m (callMethodFixed gen img m args types) r := by
  have key : callMethodFixed gen img m args types =
      callMethod gen img { m with params := List.replicate xs.length true } (xs.map fun x => .ok (img.ptr gen x)) types := by
    unfold callMethodFixed callMethod resolve
    refine resolveMultiFirst_same.bind_congr_res fun ss => ?_
    dsimp only [MethodInfo.arity]
    rw [← uniFixed hc.args, ← firstFixed hc.args]
    by_cases h1 : m.vp.length = 1
    · simp only [h1, if_true]
      generalize resolveUni _ ss m.params args = x
      cases x <;> rfl
    · simp only [h1, if_false]
      generalize resolveMultiFirstFixed _ ss _ m.params args = x
      cases x <;> rfl
  rw [key, call_ref_ks hv h hc.mem (argsFor_all _ xs) hc.callable ho (.inr ⟨0, xs.length, 0, by simp⟩)]
  exact refCall_settled hs types

/-- The call of `C05_refuted`, and the same call corrected. -/
example : run gap gapped [1, 2] = some (.ok 11) ∧ (match install .std false gap 0 with
    | .ok (_, img) => callMethodFixed 0 img gapped (Check.mkArgs (img.ptr 0) gapped.params [1, 2]) []
    | _ => .ub) = .ok 12 := by decide +kernel

end OpenMethod.Props
