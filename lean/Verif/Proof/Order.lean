import Verif.Proof.Compile

/-! # Registration orders for which all transitive bases are known -/

namespace OpenMethod

open Spec Relation

/-- The traversal misses nothing: whatever it adds, it adds with its bases. -/
theorem collect_closed (tb : Cls → List Cls) (univ : List Cls) (htb : ∀ c ∈ univ, ∀ x ∈ tb c, x ∈ univ)
    (fuel : Nat) (acc : List Cls) (b : Cls) (hb : b ∈ univ) (hacc : ∀ x ∈ acc, x ∈ univ) (hnd : acc.Nodup)
    (hf : univ.length ≤ fuel + acc.length) :
    b ∈ collect tb fuel acc b ∧ (∀ x ∈ collect tb fuel acc b, x ∈ univ) ∧
      ∀ u ∈ collect tb fuel acc b, u ∉ acc → ∀ v ∈ tb u, v ∈ collect tb fuel acc b := by
  induction fuel generalizing acc b with
  | zero =>
    have hin : b ∈ acc := by
      by_contra hni
      have hsub : (b :: acc) ⊆ univ := by
        intro x hx; rcases List.mem_cons.1 hx with rfl | hx
        · exact hb
        · exact hacc _ hx
      have := ((List.nodup_cons.2 ⟨hni, hnd⟩).subperm hsub).length_le
      simp at this; omega
    exact ⟨hin, hacc, fun u hu hn => absurd hu hn⟩
  | succ n ih =>
    unfold collect
    split
    · rename_i hin
      exact ⟨hin, hacc, fun u hu hn => absurd hu hn⟩
    · rename_i hni
      have key := foldl_inv_prefix
        (fun (ys : List Cls) (a : List Cls) => acc ++ [b] <+: a ∧ a.Nodup ∧ (∀ x ∈ a, x ∈ univ) ∧ (∀ y ∈ ys, y ∈ a) ∧
          ∀ u ∈ a, u ∉ acc ++ [b] → ∀ v ∈ tb u, v ∈ a) (collect tb n) (tb b) (acc ++ [b]) ?_ ?_
      · obtain ⟨h1, _, h3, h4, h5⟩ := key
        refine ⟨h1.subset (by simp), h3, ?_⟩
        intro u hu hna v hv
        by_cases hub : u = b
        · subst hub; exact h4 v hv
        · exact h5 u hu (by simp [hna, hub]) v hv
      · refine ⟨List.prefix_rfl, ?_, ?_, by simp, fun u hu hn => absurd hu hn⟩
        · rw [List.nodup_append]
          exact ⟨hnd, by simp, by rintro a ha b' hb' rfl; simp at hb'; subst hb'; contradiction⟩
        · intro x hx
          rcases List.mem_append.1 hx with hx | hx
          · exact hacc x hx
          · simp at hx; subst hx; exact hb
      · rintro ys y post a hys ⟨h1, h2, h3, h4, h5⟩
        have hlen := h1.length_le
        simp at hlen
        obtain ⟨i1, i2, i3⟩ := ih a y (htb b hb y (by rw [hys]; simp)) h3 h2 (by omega)
        have hmono := collect_prefix tb n a y
        refine ⟨h1.trans hmono, collect_nodup tb n a y h2, i2, ?_, ?_⟩
        · intro z hz
          rcases List.mem_append.1 hz with hz | hz
          · exact hmono.subset (h4 z hz)
          · simp at hz; subst hz; exact i1
        · intro u hu hn v hv
          by_cases hua : u ∈ a
          · exact hmono.subset (h5 u hua hn v hv)
          · exact i3 u hu hua v hv

theorem collect_complete {tb : Cls → List Cls} {univ : List Cls} (htb : ∀ c ∈ univ, ∀ x ∈ tb c, x ∈ univ) {fuel : Nat} {b x : Cls}
    (hb : b ∈ univ) (hf : univ.length ≤ fuel) (hx : ReflTransGen (fun u v => v ∈ tb u) b x) : x ∈ collect tb fuel [] b := by
  obtain ⟨h1, _, h3⟩ := collect_closed tb univ htb fuel [] b hb (by simp) (by simp) (by simpa using hf)
  induction hx with
  | refl => exact h1
  | tail _ hbc ih => exact h3 _ ih (by simp) _ hbc

/-- The bases known after the records `pre` are those that can be found in `pre`. -/
structure Pass2C (p : Program) (s0 : Lattice) (pre : List ClassInfo) (s : Lattice) : Prop where
  order : s.order = s0.order
  tb : ∀ c x, x ∈ s.tb c ↔ FoundIn p pre c x

theorem Spec.FoundIn.derives {p : Program} {pre : List ClassInfo} (hpre : pre ⊆ p.classes) {c x : Cls} (h : FoundIn p pre c x) :
    TransGen (DeclaredBase p) c x := by
  obtain ⟨pre', cr, post, rfl, rfl, t, ht, hne, hx⟩ := h
  refine TransGen.head' ⟨cr, hpre (by simp), rfl, t, ht, rfl, hne⟩ (ReflTransGen.mono ?_ _ _ hx)
  rintro d b ⟨cr', hcr', hr⟩
  exact ⟨cr', hpre (by simp [hcr']), hr⟩

theorem Spec.FoundIn.of_declared {p : Program} {pre : List ClassInfo} {c x : Cls} (h : DeclaredIn p pre c x) : FoundIn p pre c x := by
  obtain ⟨cr, hcr, rfl, t, ht, rfl, hne⟩ := h
  obtain ⟨pre', post, rfl⟩ := List.append_of_mem hcr
  exact ⟨pre', cr, post, rfl, rfl, t, ht, hne, .refl⟩

theorem Spec.FoundIn.path {p : Program} {pre : List ClassInfo} {c x : Cls} (h : FoundIn p pre c x) :
    ReflTransGen (DeclaredIn p pre) c x := by
  obtain ⟨pre', cr, post, rfl, rfl, t, ht, hne, hx⟩ := h
  refine ReflTransGen.head ⟨cr, by simp, rfl, t, ht, rfl, hne⟩ (ReflTransGen.mono ?_ _ _ hx)
  rintro d b ⟨cr', hcr', hr⟩
  exact ⟨cr', by simp [hcr'], hr⟩

theorem foundIn_append {p : Program} {pre : List ClassInfo} {cr : ClassInfo} {c x : Cls} :
    FoundIn p (pre ++ [cr]) c x ↔ FoundIn p pre c x ∨ (p.rtti.ti cr.type = c ∧ ∃ t ∈ cr.bases, c ≠ p.rtti.ti t ∧
      ReflTransGen (DeclaredIn p pre) (p.rtti.ti t) x) := by
  constructor
  · rintro ⟨pre', cr', post, he, h⟩
    rcases List.eq_nil_or_concat post with rfl | ⟨post', z, rfl⟩
    · obtain ⟨rfl, h2⟩ := List.append_inj' he rfl
      obtain rfl := List.cons.inj h2 |>.1
      exact .inr h
    · rw [List.concat_eq_append, ← List.cons_append, ← List.append_assoc] at he
      obtain ⟨rfl, -⟩ := List.append_inj' he rfl
      exact .inl ⟨pre', cr', post', rfl, h⟩
  · rintro (⟨pre', cr', post, rfl, h⟩ | h)
    · exact ⟨pre', cr', post ++ [cr], by simp, h⟩
    · exact ⟨pre, cr, [], rfl, h⟩

theorem pass2C_step {p : Program} (hac : Acyclic p) {s0 s s' : Lattice} {pre post : List ClassInfo} {cr : ClassInfo}
    (hin : ∀ cr ∈ p.classes, ∀ t ∈ cr.bases, p.rtti.ti t ∈ s0.order)
    (hl : p.classes = pre ++ cr :: post) (h : Pass2C p s0 pre s) (hs : addBases p.rtti s cr = .ok s') :
    Pass2C p s0 (pre ++ [cr]) s' := by
  have hcr : cr ∈ p.classes := by rw [hl]; simp
  have hpre : pre ⊆ p.classes := by rw [hl]; simp
  have hmem : ∀ {c x}, TransGen (DeclaredBase p) c x → x ∈ s0.order := by
    intro c x hx
    obtain ⟨_, _, cr', hcr', _, t, ht, rfl, _⟩ := TransGen.tail'_iff.1 hx
    exact hin cr' hcr' t ht
  have key := foldlM_inv_prefix
    (fun (ts : List TypeId) (u : Lattice) =>
      u.order = s0.order ∧ ∀ c x, x ∈ u.tb c ↔ x ∈ s.tb c ∨ (p.rtti.ti cr.type = c ∧ ∃ t ∈ ts, c ≠ p.rtti.ti t ∧
        ReflTransGen (DeclaredIn p pre) (p.rtti.ti t) x))
    (addBase p.rtti (p.rtti.ti cr.type)) cr.bases s s' hs ⟨h.order, by simp⟩ ?_
  · refine ⟨key.1, fun c x => ?_⟩
    rw [key.2, h.tb, foundIn_append]
  · rintro ts t post' u u' hts ⟨g1, g2⟩ hu
    obtain ⟨_, hsame, hcase⟩ := addBase_ok hu
    have htin : t ∈ cr.bases := by rw [hts]; simp
    refine ⟨by rw [hsame]; exact g1, fun c x => ?_⟩
    rcases hcase with ⟨hc, rfl⟩ | ⟨hne, htb⟩
    · rw [g2]
      refine or_congr Iff.rfl (and_congr_right fun he => ?_)
      subst he
      constructor
      · rintro ⟨t', ht', h'⟩; exact ⟨t', by simp [ht'], h'⟩
      · rintro ⟨t', ht', h'⟩
        rcases List.mem_append.1 ht' with ht' | ht'
        · exact ⟨t', ht', h'⟩
        · simp at ht'; subst ht'; exact absurd hc h'.1
    · rw [htb]
      by_cases hc : c = p.rtti.ti cr.type
      · subst hc
        have hdecl : DeclaredBase p (p.rtti.ti cr.type) (p.rtti.ti t) := ⟨cr, hcr, rfl, t, htin, rfl, hne⟩
        have hsub : ∀ {c x}, x ∈ u.tb c → TransGen (DeclaredBase p) c x := by
          intro c x hx
          rcases (g2 c x).1 hx with hx | ⟨rfl, t', ht', hne', hx⟩
          · exact ((h.tb c x).1 hx).derives hpre
          · refine TransGen.head' ⟨cr, hcr, rfl, t', by rw [hts]; simp [ht'], rfl, hne'⟩ (ReflTransGen.mono ?_ _ _ hx)
            rintro d b ⟨cr', hcr', hr⟩
            exact ⟨cr', hpre hcr', hr⟩
        have hreach : ∀ y, ReflTransGen (fun a b => b ∈ u.tb a) (p.rtti.ti t) y → ReflTransGen (DeclaredIn p pre) (p.rtti.ti t) y := by
          intro y hy
          induction hy with
          | refl => exact .refl
          | @tail b d hb hbd ih =>
            rcases (g2 b d).1 hbd with hd | ⟨rfl, -⟩
            · exact ih.trans ((h.tb b d).1 hd).path
            · exact absurd (hac _ _ (.single hdecl) (reflTransGen_tb (fun _ _ => hsub) hb)) hne
        have hcol : ∀ y, y ∈ collect u.tb (u.order.length + 1) [] (p.rtti.ti t) ↔ ReflTransGen (DeclaredIn p pre) (p.rtti.ti t) y := by
          intro y
          constructor
          · intro hy
            exact hreach y ((collect_sound _ _ _ _ _ hy).resolve_left (by simp))
          · intro hy
            refine collect_complete (univ := u.order) (fun c _ x hx => ?_) ?_ (by omega) (ReflTransGen.mono ?_ _ _ hy)
            · rw [g1]; exact hmem (hsub hx)
            · rw [g1]; exact hin cr hcr t htin
            · intro a b hab
              exact (g2 a b).2 (.inl ((h.tb a b).2 (.of_declared hab)))
        rw [Function.update_self, List.mem_append, g2, hcol]
        constructor
        · rintro ((hx | ⟨-, t', ht', h'⟩) | hx)
          · exact .inl hx
          · exact .inr ⟨rfl, t', by simp [ht'], h'⟩
          · exact .inr ⟨rfl, t, by simp, hne, hx⟩
        · rintro (hx | ⟨-, t', ht', h'⟩)
          · exact .inl (.inl hx)
          · rcases List.mem_append.1 ht' with ht' | ht'
            · exact .inl (.inr ⟨rfl, t', ht', h'⟩)
            · simp at ht'; subst ht'; exact .inr h'.2
      · rw [Function.update_of_ne hc, g2]
        refine or_congr Iff.rfl ⟨fun h => absurd h.1.symm hc, fun h => absurd h.1.symm hc⟩

theorem augmentClasses_tb {pl : Platform} {p : Program} {L : Lattice} (h : augmentClasses pl p.rtti p.classes = .ok L) :
    ∃ s, p.classes.foldlM (addBases p.rtti) (p.classes.foldl (addClass p.rtti) Lattice.empty) = .ok s ∧
      ∀ c x, x ∈ L.tb c ↔ x ∈ s.tb c := by
  unfold augmentClasses at h
  rw [Res.bind_eq_ok] at h
  obtain ⟨s, hs, h⟩ := h
  refine ⟨s, hs, ?_⟩
  obtain rfl := Res.ok.inj h
  intro c x
  dsimp only
  rw [(pl.sort_perm _ _).mem_iff, mem_dedup]

/-- The transitive bases computed by the compiler are the bases that can be found at the time a class is registered. -/
theorem mem_tb_iff {pl : Platform} {p : Program} {L : Lattice} (hac : Acyclic p)
    (h : augmentClasses pl p.rtti p.classes = .ok L) (c x : Cls) : x ∈ L.tb c ↔ FoundIn p p.classes c x := by
  obtain ⟨s, hs, htb⟩ := augmentClasses_tb h
  have P1 := pass1 p.rtti p.classes
  have P2 := pass2 P1.tb hs
  have P := foldlM_inv_prefix
    (fun pre s => Pass2C p (p.classes.foldl (addClass p.rtti) Lattice.empty) pre s) _ p.classes _ s hs
    ⟨rfl, fun c x => by rw [P1.tb]; simp [FoundIn]⟩ (fun pre cr post u u' hl hu hstep => pass2C_step hac P2.known hl hu hstep)
  rw [htb, P.tb]

/-- Separated classes have different slots. -/
theorem avoids_of_separated {pl : Platform} {p : Program} {L : Lattice} (hac : Acyclic p) (hL : LatticeOk p L)
    (h : augmentClasses pl p.rtti p.classes = .ok L) {b y : Cls} (hs : Separated p b y) : Avoids L y b := by
  rcases hs with h1 | ⟨z, h1, h2⟩ | ⟨h1, h2⟩
  · exact .inl ((hL.derives_iff _ _).1 h1)
  · exact .inr (.inl ⟨z, (hL.derives_iff _ _).1 h1, (mem_tb_iff hac h z y).2 h2⟩)
  · refine .inr (.inr ⟨(hL.derives_iff _ _).1 h1, fun z w hz hzy hne hw => (hL.derives_iff _ _).1
      (h2 z w ((hL.derives_iff _ _).2 hz) ⟨(hL.derives_iff _ _).2 hzy, hne⟩ ((mem_tb_iff hac h z w).1 ?_))⟩)
    exact hL.db_sub z w hw

/-- In a safe registration order, slots are allocated without conflicts. -/
theorem slotSafe_of_argSafe {pl : Platform} {p : Program} {c : Compiled} (hac : Acyclic p) (hL : LatticeOk p c.lattice)
    (hm : c.meths = p.methods.map (toMeth p.rtti c.lattice))
    (h : augmentClasses pl p.rtti p.classes = .ok c.lattice) {b x : Cls} (hx : ArgSafe p b x) :
    SlotSafe c.lattice (usedByVp c.meths) b x := by
  have hP : ∀ y, usedByVp c.meths y ≠ [] → ParamClass p y := by
    intro y hy
    obtain ⟨⟨i, k⟩, hmp⟩ := List.exists_mem_of_ne_nil _ hy
    obtain ⟨m, h1, h2⟩ := mem_usedByVp.1 hmp
    rw [hm, List.getElem?_map, Option.map_eq_some_iff] at h1
    obtain ⟨mi, h1, rfl⟩ := h1
    exact ⟨mi, List.mem_of_getElem? h1, List.mem_of_getElem? h2⟩
  intro y hy hxy
  obtain ⟨h1, h2⟩ := hx y (hP y hy) ((hL.derives_iff _ _).2 hxy)
  exact ⟨avoids_of_separated hac hL h h1, avoids_of_separated hac hL h h2⟩

end OpenMethod
