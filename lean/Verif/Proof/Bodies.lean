import Verif.SpecBodies

/-! # Execution, given what calls do -/

namespace OpenMethod

open Spec Source

/-- In this outcome of a call to method number `n`, an overrider is entered with the arguments `args`, or the call fails. `FO` holds for the overriders that are entered. -/
inductive Machine.Enters {σ : Type} (X : Machine σ) (FO : Frame → Nat → Nat → List Passed → Prop) (m : MethodInfo) (n : Nat) (args : List Passed) : Outcome → Res Entered → Prop
  | run {i M o o' as} : X.src.methods[n]? = some M → M.overriders[i]? = some o → o'.pf = o.pf → X.src.Delivered (o.classes M) args as →
      (∀ as', X.src.Delivered (o.classes M) args as' → as' = as) → X.src.Typed X.prog X.reg (o.classes M) M.kinds as → FO ⟨m, o'⟩ n i as →
      Machine.Enters X FO m n args (.run i) (.ok (.entered o' as))
  | fails {r e} : Fails r e.thrown → Machine.Enters X FO m n args r (.err e)

/-- What calls, `next` and `has_next` do, and how results are converted. -/
structure Machine.Dispatches {σ : Type} (X : Machine σ) (C : MethodDecl → List Cls → Prop) (N : MethodDecl → Prop) (FO : Frame → Nat → Nat → List Passed → Prop) : Prop where
  call : ∀ n (M : MethodDecl) args, X.src.methods[n]? = some M → X.src.Typed X.prog X.reg M.classes M.kinds args → C M (X.src.classesIn args) →
    ∃ m r, X.prog.methods.find? (·.id = n) = some m ∧ m.id = n ∧ X.src.Expected M (X.src.classesIn args) r ∧
      X.Enters FO m n args r (callThunk X.cfg X.src.cpp.hier X.src.rtti X.reg m args (X.types args))
  next : ∀ F n i as (M : MethodDecl) (o : OverrideDecl) args, FO F n i as → X.src.methods[n]? = some M → M.overriders[i]? = some o → N M → X.src.Typed X.prog X.reg M.classes M.kinds args →
    List.Forall₂ (fun q a => X.src.cpp.hier.Inherits a q) (o.classes M) (X.src.classesIn args) →
    ∃ r, F.method.id = n ∧ X.src.Next M (X.src.classesIn args) i r ∧
      X.Enters FO F.method n args r (nextThunk X.src.cpp.hier X.src.rtti X.reg F.method F.overrider args (X.types args))
  hasNext : ∀ F n i as (M : MethodDecl), FO F n i as → X.src.methods[n]? = some M → N M →
    (OpenMethod.hasNext F.method.id (X.reg.next F.overrider.next) = true ↔ ∃ j, X.src.Next M (X.src.classesIn as) i (.run j))
  result : ∀ n (M : MethodDecl) (i : Nat) (o : OverrideDecl) r, X.src.methods[n]? = some M → M.overriders[i]? = some o → X.src.Fits o.ret r →
    ∃ r', X.src.result n o.pf r = .ok r' ∧ X.src.Receives M.ret o.ret r r' ∧ ∀ r'', X.src.Receives M.ret o.ret r r'' → r'' = r'

namespace Machine

variable {σ : Type} {X : Machine σ} {C : MethodDecl → List Cls → Prop} {N : MethodDecl → Prop} {FO : Frame → Nat → Nat → List Passed → Prop} {K : Contract σ}

/-- The function that runs, in the model and in the specification. -/
inductive FrameRel (FO : Frame → Nat → Nat → List Passed → Prop) : Option Frame → Option (Nat × Nat × List Passed) → Prop
  | none : FrameRel FO none none
  | some {F n i as} : FO F n i as → FrameRel FO (some F) (some (n, i, as))

def place : Option (Nat × Nat × List Passed) → Option (Nat × Nat) := Option.map fun f => (f.1, f.2.1)

/-- The contract holds at the end. -/
def EndOk (K : Contract σ) (P : Result → Prop) : Ended σ → Prop
  | .done s (.value r) => K.inv s ∧ P r
  | .done s (.threw _) => K.inv s
  | .aborted _ => True
  | _ => False

abbrev BOk (X : Machine σ) (C : MethodDecl → List Cls → Prop) (N : MethodDecl → Prop) (K : Contract σ) := X.src.BodyOk X.prog X.reg C N K

abbrev COk (X : Machine σ) (C : MethodDecl → List Cls → Prop) (N : MethodDecl → Prop) (K : Contract σ) := X.src.CodeOk X.prog X.reg C N K X.code

theorem fails_fun {r : Outcome} {x y : Thrown} (h : Fails r x) (h' : Fails r y) : x = y := by
  cases h <;> cases h' <;> rfl

/-! ## Every execution of the model is one of the specification -/

section

variable {exec : Option Frame → Body σ → σ → Option (Ended σ)}
  (hex : ∀ F f P b x e, exec F b x = some e → FrameRel FO F f → X.BOk C N K (place f) P b → K.inv x → X.src.Runs X.throws X.code (.body f b) x e ∧ EndOk K P e)

include hex

theorem run_sound (hD : X.Dispatches C N FO) (hc : X.COk C N K) {m : MethodInfo} {n : Nat} {args : List Passed} {r : Outcome} {R : Res Entered}
    (hm : m.id = n) (hE : X.Enters FO m n args r R) (hp : K.pre n args) {x : σ} (hx : K.inv x) {e : Ended σ} (h : X.run exec m x R = some e) :
    X.src.Runs X.throws X.code (.enter n args r) x e ∧ EndOk K (K.post n) e := by
  cases hE with
  | @run i M o o' as h1 h2 h3 h4 h5 h6 h7 =>
    have hb := hc n M i o args as h1 h2 hp h4 h6
    simp only [run, h3] at h
    cases hr : exec (some ⟨m, o'⟩) (X.code o.pf as) x with
    | none => rw [hr] at h; cases h
    | some e1 =>
      obtain ⟨k1, k2⟩ := hex _ (some (n, i, as)) _ _ _ _ hr (.some h7) hb hx
      rw [hr] at h
      match e1, k1, k2, h with
      | .done s' (.value v), k1, k2, h =>
        obtain ⟨v', q1, q2, _⟩ := hD.result n M i o v h1 h2 k2.2.1
        simp only [hm, q1, Option.some.injEq] at h
        subst h
        exact ⟨.returns h1 h2 h4 k1 q2, k2.1, k2.2.2 v' q2⟩
      | .done s' (.threw y), k1, k2, h =>
        simp only [Option.some.injEq] at h
        subst h
        exact ⟨.throws h1 h2 h4 k1, k2⟩
      | .aborted y, k1, k2, h =>
        simp only [Option.some.injEq] at h
        subst h
        exact ⟨.aborts h1 h2 h4 k1, trivial⟩
      | .badCast, _, k2, _ => exact absurd k2 id
      | .ub, _, k2, _ => exact absurd k2 id
  | @fails _ e' hf =>
    simp only [run, fail, Option.some.injEq] at h
    subst h
    cases ht : X.throws with
    | true => exact ⟨.errorThrows hf rfl, hx⟩
    | false => exact ⟨.errorAborts hf rfl, trivial⟩

theorem body_sound (hD : X.Dispatches C N FO) (hc : X.COk C N K) {F : Option Frame} {f : Option (Nat × Nat × List Passed)} {P : Result → Prop} {b : Body σ} {x : σ} {e : Ended σ}
    (h : X.body exec F b x = some e) (hF : FrameRel FO F f) (hb : X.BOk C N K (place f) P b) (hx : K.inv x) :
    X.src.Runs X.throws X.code (.body f b) x e ∧ EndOk K P e := by
  generalize hf : place f = f0 at hb
  induction hb generalizing x e with
  | ret hP =>
    simp only [body, Option.some.injEq] at h
    subst h
    exact ⟨.ret, hx, hP⟩
  | throw =>
    simp only [body, Option.some.injEq] at h
    subst h
    exact ⟨.throw, hx⟩
  | get _ ih =>
    simp only [body] at h
    obtain ⟨h1, h2⟩ := ih x hx h hx hf
    exact ⟨.get h1, h2⟩
  | set hx' _ ih =>
    simp only [body] at h
    obtain ⟨h1, h2⟩ := ih h hx' hf
    exact ⟨.set h1, h2⟩
  | @hasNext n i M P k hM hN _ ih =>
    cases hF with
    | none => cases hf
    | @some F n' i' as hF =>
      cases hf
      simp only [body] at h
      obtain ⟨h1, h2⟩ := ih _ h hx rfl
      exact ⟨.hasNext hM (hD.hasNext F _ _ as M hF hM hN) h1, h2⟩
  | @next n i M o P args k hM ho hN ht ha hp _ _ ih1 ih2 =>
    cases hF with
    | none => cases hf
    | @some F n' i' as hF =>
      cases hf
      simp only [body] at h
      obtain ⟨r, hm, hn, hE⟩ := hD.next F _ _ as M o args hF hM ho hN ht ha
      cases hr : X.run exec F.method x (nextThunk X.src.cpp.hier X.src.rtti X.reg F.method F.overrider args (X.types args)) with
      | none => rw [hr] at h; cases h
      | some e1 =>
        obtain ⟨k1, k2⟩ := run_sound hex hD hc hm hE hp hx hr
        rw [hr] at h
        match e1, k1, k2, h with
        | .done s' (.value v), k1, k2, h =>
          obtain ⟨j1, j2⟩ := ih1 v k2.2 h k2.1 rfl
          exact ⟨.next hM hn k1 j1, j2⟩
        | .done s' (.threw y), k1, k2, h =>
          obtain ⟨j1, j2⟩ := ih2 y h k2 rfl
          exact ⟨.next hM hn k1 j1, j2⟩
        | .aborted y, k1, k2, h =>
          simp only [Option.some.injEq] at h
          subst h
          exact ⟨.nextAborted hM hn k1, trivial⟩
        | .badCast, _, k2, _ => exact absurd k2 id
        | .ub, _, k2, _ => exact absurd k2 id
  | @call f0 n M P args k hM ht hC hp _ _ ih1 ih2 =>
    simp only [body] at h
    obtain ⟨m, r, hfind, hm, hn, hE⟩ := hD.call n M args hM ht hC
    rw [hfind] at h
    simp only at h
    cases hr : X.run exec m x (callThunk X.cfg X.src.cpp.hier X.src.rtti X.reg m args (X.types args)) with
    | none => rw [hr] at h; cases h
    | some e1 =>
      obtain ⟨k1, k2⟩ := run_sound hex hD hc hm hE hp hx hr
      rw [hr] at h
      match e1, k1, k2, h with
      | .done s' (.value v), k1, k2, h =>
        obtain ⟨j1, j2⟩ := ih1 v k2.2 h k2.1 hf
        exact ⟨.call hM hn k1 j1, j2⟩
      | .done s' (.threw y), k1, k2, h =>
        obtain ⟨j1, j2⟩ := ih2 y h k2 hf
        exact ⟨.call hM hn k1 j1, j2⟩
      | .aborted y, k1, k2, h =>
        simp only [Option.some.injEq] at h
        subst h
        exact ⟨.callAborted hM hn k1, trivial⟩
      | .badCast, _, k2, _ => exact absurd k2 id
      | .ub, _, k2, _ => exact absurd k2 id

end

theorem exec_sound (hD : X.Dispatches C N FO) (hc : X.COk C N K) (k : Nat) : ∀ F f P b x e, X.exec k F b x = some e → FrameRel FO F f → X.BOk C N K (place f) P b → K.inv x →
    X.src.Runs X.throws X.code (.body f b) x e ∧ EndOk K P e := by
  induction k with
  | zero => intro F f P b x e h; cases h
  | succ k ih => intro F f P b x e h hF hb hx; exact body_sound ih hD hc h hF hb hx

/-! ## More nested calls are allowed -/

section

variable {exec exec' : Option Frame → Body σ → σ → Option (Ended σ)} (hle : ∀ F b x e, exec F b x = some e → exec' F b x = some e)

include hle

theorem run_mono {m : MethodInfo} {x : σ} {R : Res Entered} {e : Ended σ} (h : X.run exec m x R = some e) : X.run exec' m x R = some e := by
  match R with
  | .ub => exact h
  | .err _ => exact h
  | .ok .badCast => exact h
  | .ok (.entered o as) =>
    simp only [run] at h ⊢
    cases hr : exec (some ⟨m, o⟩) (X.code o.pf as) x with
    | none => rw [hr] at h; cases h
    | some e1 => rw [hr] at h; rw [hle _ _ _ _ hr]; exact h

theorem body_mono {F : Option Frame} {b : Body σ} {x : σ} {e : Ended σ} (h : X.body exec F b x = some e) : X.body exec' F b x = some e := by
  induction b generalizing x with
  | ret => exact h
  | throw => exact h
  | get k ih => simp only [body] at h ⊢; exact ih _ h
  | set y k ih => simp only [body] at h ⊢; exact ih h
  | hasNext k ih =>
    cases F with
    | none => exact h
    | some F => simp only [body] at h ⊢; exact ih _ h
  | next args k ih =>
    cases F with
    | none => exact h
    | some F =>
      simp only [body] at h ⊢
      generalize nextThunk X.src.cpp.hier X.src.rtti X.reg F.method F.overrider args (X.types args) = R at h ⊢
      cases hr : X.run exec F.method x R with
      | none => rw [hr] at h; cases h
      | some e1 =>
        rw [hr] at h
        rw [run_mono hle hr]
        cases e1 with
        | done s' v => exact ih _ h
        | aborted => exact h
        | badCast => exact h
        | ub => exact h
  | call n args k ih =>
    simp only [body] at h ⊢
    cases hf : X.prog.methods.find? (·.id = n) with
    | none => rw [hf] at h; exact h
    | some m =>
      rw [hf] at h
      simp only at h ⊢
      generalize callThunk X.cfg X.src.cpp.hier X.src.rtti X.reg m args (X.types args) = R at h ⊢
      cases hr : X.run exec m x R with
      | none => rw [hr] at h; cases h
      | some e1 =>
        rw [hr] at h
        rw [run_mono hle hr]
        cases e1 with
        | done s' v => exact ih _ h
        | aborted => exact h
        | badCast => exact h
        | ub => exact h

end

theorem exec_succ (n : Nat) : ∀ (F : Option Frame) (b : Body σ) (x : σ) (e : Ended σ), X.exec n F b x = some e → X.exec (n + 1) F b x = some e := by
  induction n with
  | zero => intro F b x e h; cases h
  | succ n ih => exact fun F b x e h => body_mono ih h

theorem exec_mono {n k : Nat} (hnk : n ≤ k) {F : Option Frame} {b : Body σ} {x : σ} {e : Ended σ} (h : X.exec n F b x = some e) : X.exec k F b x = some e := by
  induction hnk with
  | refl => exact h
  | step _ ih => exact exec_succ _ _ _ _ _ ih

/-- The result does not depend on the bound. -/
theorem exec_fun {n k : Nat} {F : Option Frame} {b : Body σ} {x : σ} {e e' : Ended σ} (h : X.exec n F b x = some e) (h' : X.exec k F b x = some e') : e = e' :=
  Option.some.inj ((exec_mono (Nat.le_max_left n k) h).symm.trans (exec_mono (Nat.le_max_right n k) h'))

/-! ## Every execution of the specification is one of the model -/

theorem expected_unique {D : Cls → Cls → Prop} {css : List (List Cls)} {xs : List Cls} {r s : Outcome} (hr : ExpectedIn D css xs r) (hs : ExpectedIn D css xs s) : r = s := by
  cases r <;> cases s <;> simp only [ExpectedIn, Outcome.run.injEq, reduceCtorEq] at *
  · exact hs.2 _ hr.1
  · exact hs _ hr.1.1
  · exact hs.2 ⟨_, hr⟩
  · exact hr _ hs.1.1
  · exact hs.1.elim hr
  · exact hr.2 ⟨_, hs⟩
  · exact hr.1.elim hs

theorem best_unique {A : Nat → Prop} {more : Nat → Nat → Prop} {r s : Outcome} (hr : Best A more r) (hs : Best A more s) : r = s := by
  cases r <;> cases s <;> simp only [Best, Outcome.run.injEq, reduceCtorEq] at *
  · exact hs.2 _ hr.1.1 hr.1.2
  · exact hs _ hr.1.1
  · exact hs.2 ⟨_, hr⟩
  · exact hr _ hs.1.1
  · exact hs.1.elim hr
  · exact hr.2 ⟨_, hs⟩
  · exact hr.1.elim hs

/-- What is shown by induction. -/
def Reached (X : Machine σ) (C : MethodDecl → List Cls → Prop) (N : MethodDecl → Prop) (FO : Frame → Nat → Nat → List Passed → Prop) (K : Contract σ) :
    Source.Task σ → σ → Ended σ → Prop
  | .body f b, x, e => ∀ F P, FrameRel FO F f → X.BOk C N K (place f) P b → K.inv x → ∃ k, X.exec (k + 1) F b x = some e
  | .enter n args r, x, e => ∀ m R, m.id = n → X.Enters FO m n args r R → K.pre n args → K.inv x → ∃ k, X.run (X.exec k) m x R = some e

theorem exec_eq (k : Nat) (F : Option Frame) (b : Body σ) (x : σ) : X.exec (k + 1) F b x = X.body (X.exec k) F b x := rfl

theorem complete (hD : X.Dispatches C N FO) (hc : X.COk C N K) {t : Source.Task σ} {x : σ} {e : Ended σ} (h : X.src.Runs X.throws X.code t x e) : Reached X C N FO K t x e := by
  induction h with
  | ret => exact fun F P _ _ _ => ⟨0, rfl⟩
  | throw => exact fun F P _ _ _ => ⟨0, rfl⟩
  | get _ ih =>
    intro F P hF hb hx
    generalize hpl : place _ = f0 at hb
    cases hb with
    | get hb => subst hpl; exact ih F P hF (hb _ hx) hx
  | set _ ih =>
    intro F P hF hb hx
    generalize hpl : place _ = f0 at hb
    cases hb with
    | set hx' hb => subst hpl; exact ih F P hF hb hx'
  | @hasNext n i as M k s e v hM hv _ ih =>
    intro F P hF hb hx
    cases hF with
    | @some F _ _ _ hF =>
      simp only [place, Option.map_some] at hb
      cases hb with
      | @hasNext _ _ M' _ _ hM' hN hb =>
        obtain rfl := Option.some.inj (hM.symm.trans hM')
        have he : OpenMethod.hasNext F.method.id (X.reg.next F.overrider.next) = v :=
          Bool.eq_iff_iff.2 ((hD.hasNext F _ _ as M hF hM hN).trans hv.symm)
        obtain ⟨j, hj⟩ := ih (some F) P (.some hF) (hb v) hx
        refine ⟨j, ?_⟩
        rw [exec_eq] at hj ⊢
        simp only [body, he]
        exact hj
  | @next n i as M args k s r s' v e hM hn h1 _ ih1 ih2 =>
    intro F P hF hb hx
    cases hF with
    | @some F _ _ _ hF =>
      simp only [place, Option.map_some] at hb
      cases hb with
      | @next _ _ M' o _ _ _ hM' ho hN ht ha hp hb1 hb2 =>
        obtain rfl := Option.some.inj (hM.symm.trans hM')
        obtain ⟨r', hm, hn', hE⟩ := hD.next F _ _ as M o args hF hM ho hN ht ha
        obtain rfl := best_unique hn hn'
        obtain ⟨k1, e1⟩ := ih1 F.method _ hm hE hp hx
        have hs := run_sound (X := X) (FO := FO) (exec_sound hD hc k1) hD hc hm hE hp hx e1
        obtain ⟨k2, e2⟩ : ∃ k2, X.exec (k2 + 1) (some F) (k v) s' = some e := by
          cases v with
          | value v => exact ih2 (some F) P (.some hF) (hb1 v hs.2.2) hs.2.1
          | threw y => exact ih2 (some F) P (.some hF) (hb2 y) hs.2
        refine ⟨max k1 k2, ?_⟩
        rw [exec_eq]
        simp only [body]
        rw [run_mono (fun _ _ _ _ => exec_mono (Nat.le_max_left k1 k2)) e1]
        exact body_mono (fun _ _ _ _ => exec_mono (Nat.le_max_right k1 k2)) e2
  | @nextAborted n i as M args k s r y hM hn h1 ih1 =>
    intro F P hF hb hx
    cases hF with
    | @some F _ _ _ hF =>
      simp only [place, Option.map_some] at hb
      cases hb with
      | @next _ _ M' o _ _ _ hM' ho hN ht ha hp hb1 hb2 =>
        obtain rfl := Option.some.inj (hM.symm.trans hM')
        obtain ⟨r', hm, hn', hE⟩ := hD.next F _ _ as M o args hF hM ho hN ht ha
        obtain rfl := best_unique hn hn'
        obtain ⟨k1, e1⟩ := ih1 F.method _ hm hE hp hx
        refine ⟨k1, ?_⟩
        rw [exec_eq]
        simp only [body]
        rw [e1]
  | @call f n M args k s r s' v e hM hn h1 _ ih1 ih2 =>
    intro F P hF hb hx
    generalize hpl : place _ = f0 at hb
    cases hb with
    | @call _ _ M' _ _ _ hM' ht hC hp hb1 hb2 =>
      subst hpl
      obtain rfl := Option.some.inj (hM.symm.trans hM')
      obtain ⟨m, r', hfind, hm, hn', hE⟩ := hD.call n M args hM ht hC
      obtain rfl := expected_unique hn hn'
      obtain ⟨k1, e1⟩ := ih1 m _ hm hE hp hx
      have hs := run_sound (X := X) (FO := FO) (exec_sound hD hc k1) hD hc hm hE hp hx e1
      obtain ⟨k2, e2⟩ : ∃ k2, X.exec (k2 + 1) F (k v) s' = some e := by
        cases v with
        | value v => exact ih2 F P hF (hb1 v hs.2.2) hs.2.1
        | threw y => exact ih2 F P hF (hb2 y) hs.2
      refine ⟨max k1 k2, ?_⟩
      rw [exec_eq]
      simp only [body, hfind]
      rw [run_mono (fun _ _ _ _ => exec_mono (Nat.le_max_left k1 k2)) e1]
      exact body_mono (fun _ _ _ _ => exec_mono (Nat.le_max_right k1 k2)) e2
  | @callAborted f n M args k s r y hM hn h1 ih1 =>
    intro F P hF hb hx
    generalize hpl : place _ = f0 at hb
    cases hb with
    | @call _ _ M' _ _ _ hM' ht hC hp hb1 hb2 =>
      subst hpl
      obtain rfl := Option.some.inj (hM.symm.trans hM')
      obtain ⟨m, r', hfind, hm, hn', hE⟩ := hD.call n M args hM ht hC
      obtain rfl := expected_unique hn hn'
      obtain ⟨k1, e1⟩ := ih1 m _ hm hE hp hx
      refine ⟨k1, ?_⟩
      rw [exec_eq]
      simp only [body, hfind]
      rw [e1]
  | @returns n i M o args as s s' r r' hM ho hd _ hr ih =>
    intro m R hm hE hp hx
    cases hE with
    | @run _ M' o1 o' as' h1 h2 h3 h4 h5 h6 h7 =>
      obtain rfl := Option.some.inj (hM.symm.trans h1)
      obtain rfl := Option.some.inj (ho.symm.trans h2)
      obtain rfl := h5 as hd
      have hb := hc n M i o args as h1 h2 hp h4 h6
      obtain ⟨k, hk⟩ := ih (some ⟨m, o'⟩) _ (.some h7) hb hx
      have hs := (exec_sound hD hc _ _ (some (n, i, as)) _ _ _ _ hk (.some h7) hb hx).2
      obtain ⟨v', q1, _, q3⟩ := hD.result n M i o r h1 h2 hs.2.1
      refine ⟨k + 1, ?_⟩
      simp only [run, h3, hk, hm, q1, q3 r' hr]
    | fails hf => cases hf
  | @throws n i M o args as s s' y hM ho hd _ ih =>
    intro m R hm hE hp hx
    cases hE with
    | @run _ M' o1 o' as' h1 h2 h3 h4 h5 h6 h7 =>
      obtain rfl := Option.some.inj (hM.symm.trans h1)
      obtain rfl := Option.some.inj (ho.symm.trans h2)
      obtain rfl := h5 as hd
      obtain ⟨k, hk⟩ := ih (some ⟨m, o'⟩) _ (.some h7) (hc n M i o args as h1 h2 hp h4 h6) hx
      exact ⟨k + 1, by simp only [run, h3, hk]⟩
    | fails hf => cases hf
  | @aborts n i M o args as s y hM ho hd _ ih =>
    intro m R hm hE hp hx
    cases hE with
    | @run _ M' o1 o' as' h1 h2 h3 h4 h5 h6 h7 =>
      obtain rfl := Option.some.inj (hM.symm.trans h1)
      obtain rfl := Option.some.inj (ho.symm.trans h2)
      obtain rfl := h5 as hd
      obtain ⟨k, hk⟩ := ih (some ⟨m, o'⟩) _ (.some h7) (hc n M i o args as h1 h2 hp h4 h6) hx
      exact ⟨k + 1, by simp only [run, h3, hk]⟩
    | fails hf => cases hf
  | errorThrows hf ht =>
    intro m R hm hE hp hx
    cases hE with
    | run => cases hf
    | fails hf' => exact ⟨0, by simp only [run, fail, ht, if_true, fails_fun hf hf']⟩
  | errorAborts hf ht =>
    intro m R hm hE hp hx
    cases hE with
    | run => cases hf
    | fails hf' => exact ⟨0, by simp [run, fail, ht, fails_fun hf hf']⟩

/-- The model and the specification agree. -/
theorem exec_iff (hD : X.Dispatches C N FO) (hc : X.COk C N K) {b : Body σ} (hb : X.BOk C N K none (fun _ => True) b) {x : σ} (hx : K.inv x) (e : Ended σ) :
    (∃ n, X.exec n none b x = some e) ↔ X.src.Runs X.throws X.code (.body none b) x e := by
  constructor
  · rintro ⟨n, h⟩
    exact (exec_sound hD hc n none none _ b x e h .none hb hx).1
  · intro h
    obtain ⟨k, hk⟩ := complete hD hc h none _ .none hb hx
    exact ⟨_, hk⟩

end Machine

end OpenMethod
