import Verif.Model.Call
import Verif.Proof.RetElim
import Verif.Proof.Words

/-! # Where the dispatch data is stored does not matter -/

namespace OpenMethod

/-- The same pointer in other storage. -/
def Ptr.moved (g : Nat) (p : Ptr) : Ptr := { p with gen := g }

def Word.moved (g : Nat) : Word → Word
  | .addr p => .addr (p.moved g)
  | w => w

/-- All the pointers are to storage `g`. -/
def Word.In (g : Nat) : Word → Prop
  | .addr p => p.gen = g
  | _ => True

def Image.moved (g : Nat) (img : Image) : Image := { img with data := img.data.map (Word.moved g) }

theorem Res.map_bind_comm {α β α' β' : Type} {f : α → α'} {g : β → β'} {x : Res α} {k : α → Res β} {k' : α' → Res β'}
    (h : ∀ a, x = .ok a → k' (f a) = Res.map g (k a)) : (Res.map f x >>= k') = Res.map g (x >>= k) := by
  cases x with
  | ok a => exact h a rfl
  | err e => rfl
  | ub => rfl

theorem foldlM_map {α σ σ' : Type} (F : σ → σ') {g : σ → α → Res σ} {g' : σ' → α → Res σ'} (h : ∀ s a, g' (F s) a = Res.map F (g s a))
    (l : List α) (s : σ) : l.foldlM g' (F s) = Res.map F (l.foldlM g s) := by
  induction l generalizing s with
  | nil => rfl
  | cons a l ih =>
    rw [List.foldlM_cons, List.foldlM_cons, h]
    exact Res.map_bind_comm fun a _ => ih a

theorem emit_moved (g cap : Nat) (mem : List Word) (w : Word) :
    emit cap (mem.map (Word.moved g)) (w.moved g) = Res.map (List.map (Word.moved g)) (emit cap mem w) := by
  unfold emit
  rw [List.length_map]
  split <;> simp

theorem writeTable_moved (g cap : Nat) (s : List Word × List (Option Nat)) (mt : Meth × MethTable) :
    writeTable cap (s.1.map (Word.moved g), s.2) mt = Res.map (fun s => (s.1.map (Word.moved g), s.2)) (writeTable cap s mt) := by
  unfold writeTable
  split
  · rfl
  · simp only [List.length_map]
    rw [foldlM_map (List.map (Word.moved g)) (g := fun mem cell => do let f ← Res.ofOption (pfOf mt.1 cell); emit cap mem (.pf f))]
    · refine Res.map_bind_comm ?_
      intro a _; rfl
    · intro mem cell
      cases pfOf mt.1 cell with
      | none => rfl
      | some f => exact emit_moved g cap mem (.pf f)

theorem entryWord_moved (c : Compiled) (g g' : Nat) (bases : List (Option Nat)) (e : Entry) :
    entryWord c g' bases e = Res.map (Word.moved g') (entryWord c g bases e) := by
  unfold entryWord
  cases c.meths[e.method]? with
  | none => rfl
  | some m =>
    cases c.tables[e.method]? with
    | none => rfl
    | some t =>
      simp only [Res.ofOption_some, Res.ok_bind]
      split
      · cases t.table[e.group]? with
        | none => rfl
        | some cell =>
          simp only [Res.ofOption_some, Res.ok_bind]
          cases pfOf m cell with
          | none => rfl
          | some f => rfl
      · split
        · cases (bases[e.method]?).join with
          | none => rfl
          | some b => rfl
        · rfl

theorem writeVtbl_moved (c : Compiled) (g g' cap : Nat) (bases : List (Option Nat)) (s : List Word × (Cls → Int)) (x : Cls) :
    writeVtbl c g' cap bases (s.1.map (Word.moved g'), s.2) x = Res.map (fun s => (s.1.map (Word.moved g'), s.2)) (writeVtbl c g cap bases s x) := by
  unfold writeVtbl
  simp only [List.length_map]
  rw [foldlM_map (List.map (Word.moved g')) (g := fun mem e => do let w ← entryWord c g bases e; emit cap mem w)]
  · refine Res.map_bind_comm ?_
    intro a _; rfl
  · intro mem e
    rw [entryWord_moved c g g']
    exact Res.map_bind_comm fun w _ => emit_moved g' cap mem w

theorem writeGlobal_moved (c : Compiled) (g g' : Nat) : writeGlobal c g' = Res.map (Image.moved g') (writeGlobal c g) := by
  unfold writeGlobal
  have h1 := foldlM_map (fun s : List Word × List (Option Nat) => (s.1.map (Word.moved g'), s.2)) (g := writeTable (dataSize c))
    (fun s a => writeTable_moved g' (dataSize c) s a) (c.meths.zip c.tables) ([], [])
  simp only [List.map_nil] at h1
  have h1' : List.foldlM (writeTable (dataSize c)) ([], []) (c.meths.zip c.tables) = Res.map (fun s : List Word × List (Option Nat) => (s.1.map (Word.moved g'), s.2)) (List.foldlM (writeTable (dataSize c)) ([], []) (c.meths.zip c.tables)) := h1
  dsimp only
  rw [h1']
  have := fun (a : List Word × List (Option Nat)) => foldlM_map (fun s : List Word × (Cls → Int) => (s.1.map (Word.moved g'), s.2))
    (g := writeVtbl c g (dataSize c) a.2) (fun s x => writeVtbl_moved c g g' (dataSize c) a.2 s x) c.lattice.order (a.1, fun _ => 0)
  rw [← h1']
  conv_lhs => rw [h1']
  refine Res.map_bind_comm ?_
  intro a _
  have := this a
  dsimp only at this ⊢
  rw [this]
  refine Res.map_bind_comm ?_
  intro b _
  rfl

theorem writeGlobal_in {c : Compiled} {g : Nat} {img : Image} (h : writeGlobal c g = .ok img) : ∀ w ∈ img.data, w.In g := by
  refine writeGlobal_words h (Word.In g) ?_ ?_
  · intro mt _ cell _ f _; trivial
  · intro bases x _ e _ w hw
    rw [entryWord_moved c g g, Res.map_eq_ok] at hw
    obtain ⟨w', _, rfl⟩ := hw
    cases w' <;> trivial

/-! ## Calls -/

/-- Reading in storage `g` and in storage `g'` give the same words. -/
structure SameReads (g g' : Nat) (rd rd' : Ptr → Res Word) : Prop where
  same : ∀ p, p.gen = g → rd' (p.moved g') = Res.map (Word.moved g') (rd p)
  inside : ∀ p w, rd p = .ok w → w.In g

theorem readWord_same {g g' : Nat} {data : List Word} (h : ∀ w ∈ data, w.In g) :
    SameReads g g' (readWord g data) (readWord g' (data.map (Word.moved g'))) := by
  refine ⟨?_, ?_⟩
  · intro p hp
    unfold readWord
    simp only [Ptr.moved, hp, true_and]
    split
    · rw [List.getElem?_map]
      cases data[p.off.toNat]? <;> rfl
    · rfl
  · intro p w hw
    unfold readWord at hw
    split at hw
    · rw [Res.ofOption_eq_ok] at hw
      exact h w (List.mem_of_getElem? hw)
    · cases hw

/-- Arguments with the same v-table pointers, in different storage. -/
inductive SameArg (g g' : Nat) : Res Ptr → Res Ptr → Prop
  | ptr (p : Ptr) : p.gen = g → SameArg g g' (.ok p) (.ok (p.moved g'))
  | err (e : Err) : SameArg g g' (.err e) (.err e)
  | ub : SameArg g g' .ub .ub

/-- Argument lists that agree on the virtual parameters. -/
inductive SameArgs (g g' : Nat) : List Bool → List (Res Ptr) → List (Res Ptr) → Prop
  | nil : SameArgs g g' [] [] []
  | virt {ks as bs} {a b : Res Ptr} : SameArg g g' a b → SameArgs g g' ks as bs → SameArgs g g' (true :: ks) (a :: as) (b :: bs)
  | other {ks as bs} (a b : Res Ptr) : SameArgs g g' ks as bs → SameArgs g g' (false :: ks) (a :: as) (b :: bs)

variable {g g' : Nat} {rd rd' : Ptr → Res Word}

theorem moved_add (p : Ptr) (n : Nat) : (p.moved g').add n = (p.add n).moved g' := rfl

theorem resolveUni_moved (H : SameReads g g' rd rd') {ss : List Nat} {ks : List Bool} {as bs : List (Res Ptr)} (h : SameArgs g g' ks as bs) :
    resolveUni rd' ss ks bs = Res.map (Word.moved g') (resolveUni rd ss ks as) := by
  induction h with
  | nil => rfl
  | virt ha _ _ =>
    cases ha with
    | ptr p hp =>
      simp only [resolveUni, Res.ok_bind]
      cases ss[0]? with
      | none => rfl
      | some n =>
        simp only [Res.ofOption_some, Res.ok_bind]
        exact H.same (p.add n) hp
    | err e => rfl
    | ub => rfl
  | other a b _ ih => simpa only [resolveUni] using ih

theorem asIdx_moved (w : Word) : (w.moved g').asIdx = w.asIdx := by cases w <;> rfl

theorem asPf_moved (w : Word) : (w.moved g').asPf = w.asPf := by cases w <;> rfl

theorem asPtr_moved (w : Word) : (w.moved g').asPtr = Res.map (Ptr.moved g') w.asPtr := by cases w <;> rfl

theorem nextDispatch_moved (H : SameReads g g' rd rd') {ss : List Nat} {arity va : Nat} {d : Ptr} (hd : d.gen = g) {a b : Res Ptr} (h : SameArg g g' a b) :
    nextDispatch rd' ss arity va (d.moved g') true b = Res.map (Ptr.moved g') (nextDispatch rd ss arity va d true a) ∧
    ∀ q, nextDispatch rd ss arity va d true a = .ok q → q.gen = g := by
  unfold nextDispatch
  simp only [if_true]
  cases h with
  | err e => exact ⟨rfl, fun q h => by cases h⟩
  | ub => exact ⟨rfl, fun q h => by cases h⟩
  | ptr p hp =>
    simp only [Res.ok_bind]
    cases ss[va]? with
    | none => exact ⟨rfl, fun q h => by cases h⟩
    | some slot =>
      simp only [Res.ofOption_some, Res.ok_bind]
      cases ss[arity + va - 1]? with
      | none => exact ⟨rfl, fun q h => by cases h⟩
      | some stride =>
        simp only [Res.ofOption_some, Res.ok_bind]
        rw [moved_add, H.same (p.add slot) hp]
        cases hr : rd (p.add slot) with
        | err e => exact ⟨rfl, fun q h => by cases h⟩
        | ub => exact ⟨rfl, fun q h => by cases h⟩
        | ok w =>
          simp only [Res.map_ok, Res.ok_bind, asIdx_moved]
          cases w.asIdx with
          | err e => exact ⟨rfl, fun q h => by cases h⟩
          | ub => exact ⟨rfl, fun q h => by cases h⟩
          | ok i =>
            refine ⟨rfl, fun q h => ?_⟩
            have h := Res.ok.inj h
            rw [← h]; exact hd

theorem resolveMultiNext_moved (H : SameReads g g' rd rd') {ss : List Nat} {arity : Nat} {ks : List Bool} {as bs : List (Res Ptr)} (h : SameArgs g g' ks as bs) :
    ∀ (va : Nat) (d : Ptr), d.gen = g →
    resolveMultiNext rd' ss arity va (d.moved g') ks bs = Res.map (Word.moved g') (resolveMultiNext rd ss arity va d ks as) := by
  induction h with
  | nil => intro va d _; rfl
  | virt ha _ ih =>
    intro va d hd
    have := nextDispatch_moved H (ss := ss) (arity := arity) (va := va) hd ha
    simp only [resolveMultiNext]
    rw [this.1]
    refine Res.map_bind_comm ?_
    intro q hq
    split
    · exact H.same q (this.2 q hq)
    · exact ih _ q (this.2 q hq)
  | other a b _ ih =>
    intro va d hd
    simp only [resolveMultiNext, nextDispatch, Bool.false_eq_true, if_false, Res.ok_bind]
    split
    · exact H.same d hd
    · exact ih _ d hd

theorem resolveMultiFirst_moved (H : SameReads g g' rd rd') {ss : List Nat} {arity : Nat} {ks : List Bool} {as bs : List (Res Ptr)} (h : SameArgs g g' ks as bs) :
    resolveMultiFirst rd' ss arity ks bs = Res.map (Word.moved g') (resolveMultiFirst rd ss arity ks as) := by
  induction h with
  | nil => rfl
  | virt ha hs _ =>
    cases ha with
    | ptr p hp =>
      simp only [resolveMultiFirst, Res.ok_bind]
      cases ss[0]? with
      | none => rfl
      | some n =>
        simp only [Res.ofOption_some, Res.ok_bind]
        rw [moved_add, H.same (p.add n) hp]
        refine Res.map_bind_comm ?_
        intro w hw
        have hin := H.inside _ _ hw
        cases w with
        | pf f => rfl
        | idx n => rfl
        | addr q =>
          simp only [Word.moved, Word.asPtr, Res.ok_bind]
          exact resolveMultiNext_moved H hs 1 q hin
    | err e => rfl
    | ub => rfl
  | other a b _ ih => simpa only [resolveMultiFirst] using ih

theorem resolve_moved (H : SameReads g g' rd rd') {ss : List Nat} {arity : Nat} {ks : List Bool} {as bs : List (Res Ptr)} (h : SameArgs g g' ks as bs) :
    resolve rd' ss arity ks bs = resolve rd ss arity ks as := by
  have key : ∀ x : Res Word, (Res.map (Word.moved g') x >>= Word.asPf) = (x >>= Word.asPf) := by
    intro x
    cases x with
    | ok w => exact asPf_moved w
    | err e => rfl
    | ub => rfl
  unfold resolve
  dsimp only
  split
  · rw [resolveUni_moved H h]; exact key _
  · rw [resolveMultiFirst_moved H h]; exact key _

/-- A call does not depend on where the dispatch data is. -/
theorem callMethod_moved {c : Compiled} {img img' : Image} (hw : writeGlobal c g = .ok img) (hw' : writeGlobal c g' = .ok img')
    (m : MethodInfo) {as bs : List (Res Ptr)} (h : SameArgs g g' m.params as bs) (types : List TypeId) :
    callMethod g' img' m bs types = callMethod g img m as types := by
  have hm := writeGlobal_moved c g g'
  rw [hw, hw', Res.map_ok] at hm
  obtain rfl := Res.ok.inj hm
  unfold callMethod
  have h1 : slotsStridesAt (img.moved g') m.id = slotsStridesAt img m.id := rfl
  rw [h1]
  cases slotsStridesAt img m.id with
  | none => rfl
  | some ss =>
    simp only [Res.ofOption_some, Res.ok_bind]
    rw [show (img.moved g').data = img.data.map (Word.moved g') from rfl, resolve_moved (readWord_same (writeGlobal_in hw)) h]

theorem writeGlobal_vptr {c : Compiled} {img img' : Image} (hw : writeGlobal c g = .ok img) (hw' : writeGlobal c g' = .ok img') : img'.vptr = img.vptr := by
  have hm := writeGlobal_moved c g g'
  rw [hw, hw', Res.map_ok] at hm
  obtain rfl := Res.ok.inj hm
  rfl

end OpenMethod
