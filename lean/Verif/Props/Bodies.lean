import Verif.Proof.Execute

/-!
# C65: execution of programs
-/

namespace OpenMethod

open Spec Props Cpp Examples

namespace Props

/-- What C65 says of a program whose calls meet condition `C`, and that uses `next` in the overriders of methods that meet condition `N`. -/
def ExecutesFor (C : Source → Program → MethodDecl → List Cls → Prop) (N : Source → MethodDecl → Prop) (S : Source) (cfg : Config) : Prop :=
  ∀ (rs : List ClassInfo) (es : List (RegEvent × Ids)) (L : Alive) (deferred : Bool) (fuel : Nat),
    S.compile = some rs → Alive.History .none es L → S.Loaded rs L → (deferred = true ∨ ∀ e ∈ es, e.2 = S.static rs) → es.length ≤ fuel →
    (∀ M ∈ S.methods, ∀ o ∈ M.overriders, DocumentedReturn S.cpp.hier M.ret o.ret) →
    ∃ g p, Registrars.init.run deferred es = .ok g ∧ g.program deferred (S.decls rs) S.rtti fuel (S.static rs) = some p ∧
      ∀ (E : Env) (s s' : RegState) (rep : Report), E.cfg = cfg → E.n2216 = false → Initializes E p s s' rep →
        ∀ (σ : Type) (K : Source.Contract σ) (X : Machine σ) (main : Body σ) (x : σ), X.cfg = cfg → X.src = S → X.prog = p → X.reg = s' →
          S.CodeOk p s' (C S p) (N S) K X.code → S.BodyOk p s' (C S p) (N S) K none (fun _ => True) main → K.inv x →
          (∀ e, (∃ n, X.exec n none main x = some e) ↔ S.Runs X.throws X.code (.body none main) x e) ∧
          ∀ e, S.Runs X.throws X.code (.body none main) x e → (∃ x' r, e = .done x' r ∧ K.inv x') ∨ ∃ y, e = .aborted y

/-- What C65 says of the programs whose calls meet condition `C`, and that use `next` in the overriders of methods that meet condition `N`. -/
def Executes (C : Source → Program → MethodDecl → List Cls → Prop) (N : Source → MethodDecl → Prop) : Prop := ∀ (S : Source) (cfg : Config), S.Ok cfg → ExecutesFor C N S cfg

/-- C65: a program that the compiler accepts, and in which functions and overriders call methods and `next` with arguments of the right types, runs as the documentation says: with the
overriders that the rules choose, and the objects that were passed. It never reaches undefined behaviour, and no cast throws. -/
def C65 : Prop := Executes (fun _ _ _ _ => True) fun _ _ => True

/-- C65, when the order of registration is supported, virtual parameters are contiguous, the choice among the applicable overriders is settled by direct comparisons, and, if `next` is used, the overriders of the
method are nested. -/
theorem C65_partial : Executes (fun S p M xs => (AllTogether S.cpp.hier S.uses ∨ ArgsSafe p M.classes xs) ∧ (M.classes.length = 1 ∨ Contiguous M.kinds) ∧ S.Settled M xs)
    fun S M => S.Nested M := by
  intro S cfg hS rs es L deferred fuel hc hH hL hT hf hret
  obtain ⟨g, p, hg, hp, _, _⟩ := C63_partial S cfg hS rs es L deferred fuel hc hH hL hT hf
  obtain ⟨g', hg', hp'⟩ := C54 hH deferred (S.decls rs) S.rtti (S.static rs) hf
  obtain rfl := Res.ok.inj (hg.symm.trans hg')
  have he : L.program (S.decls rs) S.rtti (fun t => if deferred then S.static rs else t) = S.found rs L := by
    refine Alive.program_eq ?_
    cases hd : deferred with
    | true => exact .inl fun t => by simp
    | false =>
      refine .inr ⟨by funext t; simp, hH.at_ (fun e h => ?_) ⟨by simp [Alive.none], by simp [Alive.none], by simp [Alive.none]⟩⟩
      rcases hT with h' | h'
      · rw [hd] at h'; cases h'
      · exact h' e h
  rw [he] at hp'
  refine ⟨g, S.found rs L, hg, hp', ?_⟩
  rintro E s s' rep rfl hn hi σ K ⟨xcfg, xsrc, xprog, xreg, types, throws, code⟩ main x e1 e2 e3 e4 hcode hmain hx
  simp only at e1 e2 e3 e4
  subst e1 e2 e3 e4
  have T : Started xsrc rs L E s xreg rep := ⟨hS, hc, hL, hn, hi, hret⟩
  have hD := T.dispatches types throws code
  have key := Machine.exec_iff hD hcode hmain hx
  refine ⟨key, fun e h => ?_⟩
  obtain ⟨n, hn⟩ := (key e).2 h
  have := (Machine.exec_sound hD hcode n none none _ main x e hn .none hmain hx).2
  match e, this with
  | .done x' (.value r), h => exact .inl ⟨x', _, rfl, h.1⟩
  | .done x' (.threw r), h => exact .inl ⟨x', _, rfl, h⟩
  | .aborted y, _ => exact .inr ⟨y, rfl⟩
  | .badCast, h => exact absurd h id
  | .ub, h => exact absurd h id

/-- A program ends in one way, whatever the bound on nested calls. -/
theorem C65_deterministic {σ : Type} (X : Machine σ) {n k : Nat} {F : Option Frame} {b : Body σ} {x : σ} {e e' : Ended σ} (h : X.exec n F b x = some e) (h' : X.exec k F b x = some e') :
    e = e' := Machine.exec_fun h h'

/-! ## Concrete programs -/

/-- C65 for the concrete programs of C63. -/
theorem chainSource_executes {C : Source → Program → MethodDecl → List Cls → Prop} {N : Source → MethodDecl → Prop} {css : List (List Cls)} {rs : List ClassInfo}
    (hC : ExecutesFor C N (chainSource css) hashed) (hc : (chainSource css).compile = some rs) (hret : ∀ M ∈ chainMethods, ∀ o ∈ M.overriders, DocumentedReturn chain5 M.ret o.ret) :
    ∀ (E : Env) (s s' : RegState) (rep : Report), E.cfg = hashed → E.n2216 = false → Initializes E ((chainSource css).found rs (chainAlive css rs rs.length)) s s' rep →
      ∀ (σ : Type) (K : Source.Contract σ) (X : Machine σ) (main : Body σ) (x : σ), X.cfg = hashed → X.src = chainSource css →
        X.prog = (chainSource css).found rs (chainAlive css rs rs.length) → X.reg = s' →
        (chainSource css).CodeOk X.prog s' (C (chainSource css) X.prog) (N (chainSource css)) K X.code →
        (chainSource css).BodyOk X.prog s' (C (chainSource css) X.prog) (N (chainSource css)) K none (fun _ => True) main → K.inv x →
        (∀ e, (∃ n, X.exec n none main x = some e) ↔ (chainSource css).Runs X.throws X.code (.body none main) x e) ∧
        ∀ e, (chainSource css).Runs X.throws X.code (.body none main) x e → (∃ x' r, e = .done x' r ∧ K.inv x') ∨ ∃ y, e = .aborted y := by
  have hH := loads_history ((chainSource css).static rs) (cs := List.range rs.length) (ms := [1, 2, 3, 0]) (os := [(2, 0), (0, 2), (3, 0), (0, 0), (1, 0), (0, 1), (3, 1)])
    List.nodup_range (by decide) (by decide)
  have hT : ∀ e ∈ loads ((chainSource css).static rs) (List.range rs.length) [1, 2, 3, 0] [(2, 0), (0, 2), (3, 0), (0, 0), (1, 0), (0, 1), (3, 1)], e.2 = (chainSource css).static rs := by
    intro e he
    simp only [loads, List.mem_append, List.mem_map] at he
    rcases he with (⟨_, _, rfl⟩ | ⟨_, _, rfl⟩) | ⟨_, _, rfl⟩ <;> rfl
  obtain ⟨g, p, hg, hp, h⟩ := hC rs _ _ false _ hc hH (chainSource_loaded _ _ rfl) (.inr hT) (le_refl _) hret
  obtain ⟨g', hg', hp'⟩ := C54 hH false ((chainSource css).decls rs) rt ((chainSource css).static rs) (le_refl _)
  obtain rfl := Res.ok.inj (hg.symm.trans hg')
  obtain rfl : (chainSource css).found rs (chainAlive css rs rs.length) = p := by
    refine Option.some.inj (Eq.trans (Eq.symm ?_) hp)
    rw [show (chainSource css).rtti = rt from rfl, hp']
    refine congrArg some (Alive.program_eq (.inr ⟨by funext t; simp, ?_⟩))
    exact hH.at_ hT ⟨by simp [Alive.none], by simp [Alive.none], by simp [Alive.none]⟩
  intro E s s' rep h1 h2 h3 σ K X main x k1 k2 k3 k4 k5 k6 k7
  rw [k3] at k5 k6
  exact h E s s' rep h1 h2 h3 σ K X main x k1 k2 k3 k4 k5 k6 k7

theorem chain_returns : ∀ M ∈ chainMethods, ∀ o ∈ M.overriders, DocumentedReturn chain5 M.ret o.ret := by
  intro M hM o ho
  simp only [chainMethods, List.mem_cons, List.not_mem_nil, or_false] at hM
  rcases hM with rfl | rfl | rfl | rfl <;> simp only [List.mem_cons, List.not_mem_nil, or_false] at ho
  · rcases ho with rfl | rfl | rfl
    · exact .inl rfl
    · exact .inr ⟨_, _, _, _, rfl, rfl, .ptr, chain5_base (by decide +kernel)⟩
    · exact .inr ⟨_, _, _, _, rfl, rfl, .ptr, chain5_base (by decide +kernel)⟩
  · subst ho; exact .inl rfl
  · subst ho; exact .inl rfl
  · rcases ho with rfl | rfl <;> exact .inl rfl

/-- An object of class 5, as a `3&`. -/
def fifth : List Passed := [.virt (refArg .ref 5 [5, 4, 3])]

/-- The overrider of `h` for class 4 records 4, and adds 1 to the result of `next` if there is one. That for class 3 records 3, and calls `meet` if it has a `next`; otherwise it returns 7. -/
def chainCode (pf : Nat) (_ : List Passed) : Body (List Nat) :=
  if pf = 31 then .get fun l => .set (4 :: l) (.hasNext fun h => if h then .next fifth after else .ret (some (.other 0)))
  else if pf = 30 then .get fun l => .set (3 :: l) (.hasNext fun h => if h then .throw (.user 0) else .ret (some (.other 7)))
  else if pf = 50 ∨ pf = 20 then .ret none
  else .throw (.user 1)
where
  after : Reply → Body (List Nat)
    | .value (some (.other v)) => .ret (some (.other (v + 1)))
    | _ => .throw (.user 2)

/-- Calls `h` with this object. -/
def chainMain : Body (List Nat) := .call 3 fifth fun
  | .value r => .ret r
  | .threw x => .throw x

/-- `h` is called with this object, and returns a number. -/
def chainContract : Source.Contract (List Nat) where
  inv _ := True
  pre n args := n = 3 → args = fifth
  post n r := n = 3 → ∃ v, r = some (.other v)

theorem chain_nested {css : List (List Cls)} (M : MethodDecl) (hM : chainMethods[3]? = some M) : (chainSource css).Nested M := by
  cases hM
  intro ys _ hy o ho o' ho' h h' hm
  have e : ∀ o ∈ (chainMethods[3]'(by decide)).overriders, ∃ c, o.classes (chainMethods[3]'(by decide)) = [c] ∧ (c = 3 ∨ c = 4) := by
    intro o ho
    change o ∈ [_, _] at ho
    simp only [List.mem_cons, List.not_mem_nil, or_false] at ho
    rcases ho with rfl | rfl
    · exact ⟨3, rfl, .inl rfl⟩
    · exact ⟨4, rfl, .inr rfl⟩
  obtain ⟨c, e1, _⟩ := e o ho
  obtain ⟨d, e2, _⟩ := e o' ho'
  change List.Forall₂ _ (o'.classes (chainMethods[3]'(by decide))) (o.classes (chainMethods[3]'(by decide)))
  change MoreSpecificIn _ (o.classes (chainMethods[3]'(by decide))) (o'.classes (chainMethods[3]'(by decide))) at hm
  rw [e1, e2] at hm ⊢
  obtain ⟨⟨i, x, y, h1, h2, h3, _⟩, _⟩ := hm
  cases i with
  | zero => cases h1; cases h2; exact .cons h3 .nil
  | succ i => cases h1

theorem fifth_typed {css : List (List Cls)} {p : Program} {s : RegState} (h : p.HasId 5) (hr : p.rtti = rt) (M : MethodDecl) (hM : chainMethods[3]? = some M) :
    (chainSource css).Typed p s M.classes M.kinds fifth := by
  cases hM
  have hr' : (chainSource css).classesIn fifth = [5] := rfl
  refine ⟨?_, fun x hx => ?_⟩
  · rw [hr']
    have : Refers chain5 p s 3 (refArg .ref 5 [5, 4, 3]) (p.rtti.ti 5) := refers chain5_wf .ref h (by rw [hr]; decide +kernel)
    rw [hr] at this
    exact .virt this .nil
  · rw [hr'] at hx
    obtain rfl := List.mem_singleton.1 hx
    exact noRepeat chain5_wf (by decide +kernel)

/-- These functions meet the conditions of C65_partial. -/
theorem chainCode_ok {p : Program} {s : RegState} {C : MethodDecl → List Cls → Prop} {css : List (List Cls)} (h : p.HasId 5) (hr : p.rtti = rt) :
    (chainSource css).CodeOk p s C (chainSource css).Nested chainContract chainCode := by
  intro n M i o args as hM ho hp hd ht
  have hlt := (List.getElem?_eq_some_iff.1 hM).1
  change n < 4 at hlt
  have hn : n = 0 ∨ n = 1 ∨ n = 2 ∨ n = 3 := by omega
  have hi : i = 0 ∨ i = 1 ∨ i = 2 ∨ 3 ≤ i := by omega
  rcases hn with rfl | rfl | rfl | rfl <;> cases hM
  · rcases hi with rfl | rfl | rfl | hi
    · cases ho; exact .throw
    · cases ho; exact .throw
    · cases ho; exact .throw
    · obtain ⟨i, rfl⟩ := Nat.exists_eq_add_of_le' hi; cases ho
  · rcases i with - | i <;> cases ho
    exact .ret ⟨.void, fun _ _ h => by cases h⟩
  · rcases i with - | i <;> cases ho
    exact .ret ⟨.void, fun _ _ h => by cases h⟩
  · have hpost : ∀ v, (chainSource css).Fits (some (.other 0)) (some (.other v)) ∧
        ∀ r', (chainSource css).Receives (some (.other 0)) (some (.other 0)) (some (.other v)) r' → chainContract.post 3 r' := by
      refine fun v => ⟨.other, fun r' h _ => ?_⟩
      cases h <;> exact ⟨v, rfl⟩
    rcases i with - | - | i
    · cases ho
      refine .get fun l _ => .set trivial (.hasNext rfl (chain_nested _ rfl) fun b => ?_)
      cases b
      · exact .ret (hpost 7)
      · exact .throw
    · cases ho
      refine .get fun l _ => .set trivial (.hasNext rfl (chain_nested _ rfl) fun b => ?_)
      cases b
      · exact .ret (hpost 0)
      · refine .next rfl rfl (chain_nested _ rfl) (fifth_typed h hr _ rfl) ?_ (fun _ => rfl) (fun v hv => ?_) fun x => .throw
        · exact .cons (Hier.Unambiguous.inherits (show chain5.Unambiguous 5 4 from chain5_base (by decide +kernel))) .nil
        · obtain ⟨v, rfl⟩ := hv rfl
          exact .ret (hpost (v + 1))
    · cases ho

/-- Calls `h` in the program with one `use_classes`, after `initialize`. -/
def chainRun : Option (Option (Ended (List Nat))) :=
  (initOf (env hashed) chainProgram .init).map fun x => (Machine.mk hashed (chainSource [[5, 4, 3, 2, 1]]) chainProgram x.1 (fun _ => []) true chainCode).exec 4 none chainMain []
where
  chainProgram := (chainSource [[5, 4, 3, 2, 1]]).found allBases (chainAlive [[5, 4, 3, 2, 1]] allBases allBases.length)

/-- C65_partial applies to this program: the overriders for class 4 and class 3 run, in this order. -/
example : ∃ p s rep, Initializes (env hashed) p .init s rep ∧
    (chainSource [[5, 4, 3, 2, 1]]).Runs true chainCode (.body none chainMain) [] (.done [3, 4] (.value (some (.other 8)))) := by
  have hc : (chainSource [[5, 4, 3, 2, 1]]).compile = some allBases := by decide +kernel
  have hx : chainRun = some (some (.done [3, 4] (.value (some (.other 8))))) := by decide +kernel
  obtain ⟨x, hi, hx⟩ := Option.map_eq_some_iff.1 hx
  have hi := initOf_eq hi
  refine ⟨_, _, _, hi, ?_⟩
  have hid : chainRun.chainProgram.HasId 5 := ⟨cls 5 [4, 3, 2, 1], by decide +kernel, rfl⟩
  have h := chainSource_executes (C65_partial _ _ (chainSource_ok (by decide +kernel) (by decide +kernel))) hc chain_returns _ _ _ _ rfl rfl hi (List Nat) chainContract
    (Machine.mk hashed (chainSource [[5, 4, 3, 2, 1]]) chainRun.chainProgram x.1 (fun _ => []) true chainCode) chainMain [] rfl rfl rfl rfl
    (chainCode_ok hid rfl) ?_ trivial
  · exact (h.1 _).1 ⟨4, hx⟩
  · refine .call rfl (fifth_typed hid rfl _ rfl) ⟨.inl (allTogether_one _), .inl rfl, settled chain5_wf (.inl rfl)⟩ (fun _ => rfl) (fun v _ => .ret trivial) fun x => .throw

/-- Calls the method on class 5 with an object of this class. -/
def lateMain : Body Unit := .call 1 [.virt (refArg .ref 5 [5])] fun
  | .value r => .ret r
  | .threw x => .throw x

/-- Runs `lateMain` in the program that lists its classes in two `use_classes`, in an order that is not supported. -/
def lateRun : Option (Option (Ended Unit)) :=
  (initOf (env hashed) lateProgram .init).map fun x =>
    (Machine.mk hashed (chainSource lateLists) lateProgram x.1 (fun _ => []) true fun _ _ => .throw (.user 0)).exec 4 none lateMain ()
where
  lateProgram := (chainSource lateLists).found lateBases (chainAlive lateLists lateBases lateBases.length)

/-- C65 does not hold without the condition on the order, as C63. -/
theorem C65_refuted : ¬ C65 := by
  intro hC
  have hc : (chainSource lateLists).compile = some lateBases := by decide +kernel
  have hx : lateRun = some (some .ub) := by decide +kernel
  obtain ⟨x, hi, hx⟩ := Option.map_eq_some_iff.1 hx
  have hi := initOf_eq hi
  have hid : lateRun.lateProgram.HasId 5 := ⟨cls 5 [4], by decide +kernel, rfl⟩
  have h := chainSource_executes (hC _ _ (chainSource_ok (by decide +kernel) (by decide +kernel))) hc chain_returns _ _ _ _ rfl rfl hi Unit ⟨fun _ => True, fun _ _ => True, fun _ _ => True⟩
    (Machine.mk hashed (chainSource lateLists) lateRun.lateProgram x.1 (fun _ => []) true fun _ _ => .throw (.user 0)) lateMain () rfl rfl rfl rfl
    (fun _ _ _ _ _ _ _ _ _ _ _ => .throw) ?_ trivial
  · rcases h.2 _ ((h.1 _).1 ⟨4, hx⟩) with ⟨_, _, e, _⟩ | ⟨_, e⟩ <;> cases e
  · refine .call rfl ⟨.virt (refers chain5_wf .ref hid (show [5] ∈ chain5.occ 5 5 by decide +kernel)) .nil, fun x hx => ?_⟩ trivial trivial (fun v _ => .ret trivial) fun x => .throw
    obtain rfl := List.mem_singleton.1 hx; exact noRepeat chain5_wf (by decide +kernel)

end Props

end OpenMethod
