import Verif.Spec

/-! # Simple ways to register classes in a safe order -/

namespace OpenMethod

open Spec Relation

theorem Spec.AllFound.orderSafe {p : Program} {x : Cls} (h : AllFound p x) : OrderSafe p x := by
  intro b c _ _ hb hc
  by_cases he : x = c
  · exact .inl (he ▸ hb)
  · exact .inr (.inl ⟨x, hb, h c ⟨hc, he⟩⟩)

/-- A base is found by the record that declares it. -/
theorem Spec.DeclaredBase.found {p : Program} {x b : Cls} (h : DeclaredBase p x b) : FoundIn p p.classes x b := by
  obtain ⟨cr, hcr, rfl, t, ht, rfl, hne⟩ := h
  obtain ⟨pre, post, he⟩ := List.append_of_mem hcr
  exact ⟨pre, cr, post, he, rfl, t, ht, hne, .refl⟩

/-- If each class finds one base, inheritance above a class is a chain. -/
theorem Spec.OneFound.chain {p : Program} {x : Cls} (h : OneFound p x) {b c : Cls} (hb : Derives p x b) (hc : Derives p x c) :
    Derives p b c ∨ Derives p c b := by
  induction hb with
  | refl => exact .inl hc
  | @tail y z hxy hyz ih =>
    rcases ih with h1 | h1
    · rcases ReflTransGen.cases_head h1 with rfl | ⟨w, hw, h2⟩
      · exact .inr (.single hyz)
      · rw [h y hxy z w hyz.found hw.found]
        exact .inl h2
    · exact .inr (h1.tail hyz)

theorem Spec.OneFound.orderSafe {p : Program} {x : Cls} (h : OneFound p x) : OrderSafe p x := by
  intro b c _ _ hb hc
  rcases h.chain hb hc with hbc | hcb
  · refine .inr (.inr ⟨hbc, fun z w hbz hzc hw => ?_⟩)
    rcases ReflTransGen.cases_head hzc.1 with rfl | ⟨d, hd, hdc⟩
    · exact absurd rfl hzc.2
    · rw [h z (hb.trans hbz) w d hw hd.found]
      exact hdc
  · exact .inl hcb

/-- If the order is safe for the classes of the arguments, it is safe for the call. -/
theorem Spec.OrderSafe.args {p : Program} {cs xs : List Cls} (h : ∀ x ∈ xs, OrderSafe p x) (hc : ∀ c ∈ cs, ParamClass p c) (ha : Accepts p cs xs) :
    ArgsSafe p cs xs := by
  induction ha with
  | nil => exact .nil
  | @cons b x cs xs hd _ ih =>
    refine .cons (fun c hp hx => ?_) (ih (fun x hx => h x (List.mem_cons_of_mem _ hx)) fun c h => hc c (List.mem_cons_of_mem _ h))
    exact ⟨h x List.mem_cons_self b c (hc b List.mem_cons_self) hp hd hx, h x List.mem_cons_self c b hp (hc b List.mem_cons_self) hx hd⟩

theorem Spec.OrderSafe.call {p : Program} {m : MethodInfo} {xs : List Cls} (h : ∀ x ∈ xs, OrderSafe p x) (hm : m ∈ p.methods)
    (ha : Accepts p (classesOf p m.vp) xs) : ArgsSafe p (classesOf p m.vp) xs :=
  OrderSafe.args h (fun _ hc => ⟨m, hm, hc⟩) ha

theorem Spec.OneParam.orderSafe {p : Program} {x : Cls} (h : OneParam p x) : OrderSafe p x := by
  intro b c hb hc hxb hxc
  rw [h b c hb hc hxb hxc]
  exact .inl .refl

theorem Spec.ListsAncestors.allFound {p : Program} {x : Cls} (h : ListsAncestors p x) : AllFound p x := by
  intro b hb
  exact (h b hb).found

theorem Spec.DeclaredIn.mono {p : Program} {l l' : List ClassInfo} (h : l ⊆ l') {d b : Cls} : DeclaredIn p l d b → DeclaredIn p l' d b :=
  fun ⟨cr, hcr, hr⟩ => ⟨cr, h hcr, hr⟩

theorem Spec.BasesFirst.path {p : Program} {x : Cls} (h : BasesFirst p x) {a b : Cls} (hab : Derives p a b) :
    ∀ {pre cr post}, p.classes = pre ++ cr :: post → Derives p x (p.rtti.ti cr.type) → ∀ t ∈ cr.bases, p.rtti.ti cr.type ≠ p.rtti.ti t →
      p.rtti.ti t = a → ReflTransGen (DeclaredIn p pre) a b := by
  induction hab using ReflTransGen.head_induction_on with
  | refl => intros; exact .refl
  | head hac _ ih =>
    rintro pre cr post he hx t ht hne rfl
    obtain ⟨cr', hcr', e1, t', ht', e2, hne'⟩ := h pre cr post he hx t ht hne _ hac
    obtain ⟨pre', post', he'⟩ := List.append_of_mem hcr'
    have hx' : Derives p x (p.rtti.ti cr'.type) := e1 ▸ hx.tail ⟨cr, by rw [he]; simp, rfl, t, ht, rfl, hne⟩
    refine .head ⟨cr', hcr', e1, t', ht', e2, hne'⟩
      (ReflTransGen.mono (fun _ _ => DeclaredIn.mono ?_) _ _
        (ih (pre := pre') (cr := cr') (post := post' ++ cr :: post) (by rw [he, he']; simp) hx' t' ht' (by rw [e1, e2]; exact hne') e2))
    rw [he']; simp

theorem Spec.BasesFirst.allFound {p : Program} {x : Cls} (h : BasesFirst p x) : AllFound p x := by
  rintro b ⟨hb, hne⟩
  rcases ReflTransGen.cases_head hb with rfl | ⟨c, ⟨cr, hcr, rfl, t, ht, rfl, hcb⟩, hc⟩
  · exact absurd rfl hne
  · obtain ⟨pre, post, he⟩ := List.append_of_mem hcr
    exact ⟨pre, cr, post, he, rfl, t, ht, hcb, h.path hc he .refl t ht hcb rfl⟩

end OpenMethod
