import Verif.Registry.Lemmas2

namespace Polog
open StackSpec

def Seg.wraps : Seg → List Wrap
  | .bare => []
  | .logged d _ => [.log d]
  | .unlogged full => [.unlog full]

/-- What Polog sees, and what is under it. -/
def expected : List Layer → Seg × List Wrap
  | [] => (.bare, [])
  | .other :: ls => (.bare, .other :: ((expected ls).1.wraps ++ (expected ls).2))
  | l :: ls => ((expected ls).1.next l, (expected ls).2)

theorem wraps_of {r : FRegistry} {o f : FObj} {s : Seg} (hs : s.Is r o f) : wraps f = s.wraps ++ wraps o := by
  cases s with
  | bare => rw [hs.1]; rfl
  | logged d own => obtain ⟨i, rfl, _⟩ := hs; rfl
  | unlogged full => obtain ⟨i, rfl, _⟩ := hs; rfl

theorem bottom_of {r : FRegistry} {o f : FObj} {s : Seg} (hs : s.Is r o f) : bottom f = bottom o := by
  cases s with
  | bare => rw [hs.1]
  | logged d own => obtain ⟨i, rfl, _⟩ := hs; rfl
  | unlogged full => obtain ⟨i, rfl, _⟩ := hs; rfl

theorem Seg.Is_bframe {r r' : FRegistry} {objs : List FObj} {b : Nat} {o f : FObj} {s : Seg}
    (hf : BFrame r r' objs b) (hs : s.Is r o f)
    (ho : ∀ x ∈ objs, bottom x = b → x.id ≠ o.id) (hff : ∀ x ∈ objs, bottom x = b → x.id ≠ f.id) :
    s.Is r' o f := by
  cases s with
  | bare =>
    obtain ⟨e, h3, h4⟩ := hs
    exact ⟨e, by rw [hf.forb _ ho]; exact h3, by rw [hf.meth _ ho]; exact h4⟩
  | logged d own =>
    obtain ⟨i, rfl, h3, h4, h5, h6, h7⟩ := hs
    refine ⟨i, rfl, h3, Nat.lt_of_lt_of_le h4 hf.le, ?_, ?_, ?_⟩
    · rw [hf.dec i h4 hff]; exact h5
    · rw [hf.forb _ ho]; exact h6
    · rw [hf.meth _ ho]; exact h7
  | unlogged full =>
    obtain ⟨i, rfl, h3, h4, h5, h6, h7⟩ := hs
    refine ⟨i, rfl, h3, Nat.lt_of_lt_of_le h4 hf.le, ?_, ?_, ?_⟩
    · rw [hf.dec i h4 hff]; exact h5
    · rw [hf.unl i h4]; exact h6
    · rw [hf.forb _ ho]; exact h7

theorem BaseFn_bframe {r r' : FRegistry} {objs : List FObj} {b : Nat} {o : FObj}
    (hf : BFrame r r' objs b) (hb : BaseFn r o) (ho : ∀ x ∈ objs, bottom x = b → x.id ≠ o.id) : BaseFn r' o :=
  ⟨Nat.lt_of_lt_of_le hb.lt hf.le, by rw [hf.dec _ hb.lt ho]; exact hb.dec, by rw [hf.unl _ hb.lt]; exact hb.unl⟩

theorem Built.inv {b : Nat} {r : FRegistry} {objs : List FObj} {f : FObj} {ls : List Layer}
    (h : Built b r objs f ls) :
    RegInv r objs ∧ f ∈ objs ∧ ∃ o ∈ objs, BaseFn r o ∧ (expected ls).1.Is r o f ∧ wraps o = (expected ls).2 ∧
      bottom o = b := by
  induction h with
  | @define r objs hh hb =>
    have hi := hh.inv
    have hbase : BaseFn r.defFn.2 r.defFn.1 :=
      ⟨Nat.lt_succ_self _, hi.wf.dec _ (Nat.le_refl _), hi.wf.unl _ (Nat.le_refl _)⟩
    refine ⟨RegInv_define hi, List.mem_cons_self, _, List.mem_cons_self, hbase, ⟨rfl, ?_, ?_⟩, rfl, hb⟩
    · intro hc
      exact absurd (hi.wf.forb _ hc) (Nat.lt_irrefl _)
    · intro hc
      exact absurd (hi.wf.meth _ hc) (Nat.lt_irrefl _)
  | @line r objs f ls l _ ih =>
    obtain ⟨hi, hf, o, ho, hb, hs, hw, hbot⟩ := ih
    have hi' := RegInv_apply hi l hf
    have hpolog : ¬ IsOther l → (expected (l :: ls)) = ((expected ls).1.next l, (expected ls).2) := by
      intro hl
      cases l with
      | other => exact absurd trivial hl
      | log d => rfl
      | cls d => rfl
      | unlog full => rfl
    by_cases hl : IsOther l
    · cases l with
      | other =>
        refine ⟨hi', List.mem_cons_self, _, List.mem_cons_self, ?_, ⟨rfl, ?_, ?_⟩, ?_, ?_⟩
        · exact ⟨Nat.lt_succ_self _, hi.wf.dec _ (Nat.le_refl _), hi.wf.unl _ (Nat.le_refl _)⟩
        · intro hc
          exact absurd (hi.wf.forb _ hc) (Nat.lt_irrefl _)
        · intro hc
          exact absurd (hi.wf.meth _ hc) (Nat.lt_irrefl _)
        · change Wrap.other :: wraps f = Wrap.other :: _
          rw [wraps_of hs, hw]
        · change bottom f = b
          rw [bottom_of hs, hbot]
      | log d => exact hl.elim
      | cls d => exact hl.elim
      | unlog full => exact hl.elim
    · obtain ⟨k1, k2, _⟩ := apply_step hi.wf hb hs l hl
      rw [hpolog hl]
      exact ⟨hi', List.mem_cons_self, o, List.mem_cons_of_mem _ ho, k2, k1, hw, hbot⟩
  | @defineAnother r objs f ls _ ih =>
    obtain ⟨hi, hf, o, ho, hb, hs, hw, hbot⟩ := ih
    exact ⟨RegInv_define hi, List.mem_cons_of_mem _ hf, o, List.mem_cons_of_mem _ ho, BaseFn_next hb,
      Seg.Is_next hs, hw, hbot⟩
  | @decorateAnother r objs f ls l g _ hg hgb ih =>
    obtain ⟨hi, hf, o, ho, hb, hs, hw, hbot⟩ := ih
    have hfr := (made_apply hi l hg).frame
    have ho' : ∀ x ∈ objs, bottom x = bottom g → x.id ≠ o.id := by
      intro x hx hxb e
      rw [hi.uniq x hx o ho e, hbot] at hxb
      exact hgb hxb.symm
    have hf' : ∀ x ∈ objs, bottom x = bottom g → x.id ≠ f.id := by
      intro x hx hxb e
      rw [hi.uniq x hx f hf e, bottom_of hs, hbot] at hxb
      exact hgb hxb.symm
    exact ⟨RegInv_apply hi l hg, List.mem_cons_of_mem _ hf, o, List.mem_cons_of_mem _ ho, BaseFn_bframe hfr hb ho',
      Seg.Is_bframe hfr hs ho' hf', hw, hbot⟩

/-! ### The specification -/

/-- What Polog sees of a stack without foreign decorators. -/
def segOf : List Layer → Seg
  | [] => .bare
  | l :: ls => (segOf ls).next l

theorem expected_polog {upper : List Layer} (h : PologOnly upper) (lower : List Layer) :
    expected (upper ++ .other :: lower) =
      (segOf upper, .other :: ((expected lower).1.wraps ++ (expected lower).2)) := by
  induction upper with
  | nil => rfl
  | cons l ls ih =>
    have hl := h l List.mem_cons_self
    have := ih fun x hx => h x (List.mem_cons_of_mem _ hx)
    cases l with
    | other => exact absurd trivial hl
    | log d => simp only [List.cons_append, expected, this, segOf]
    | cls d => simp only [List.cons_append, expected, this, segOf]
    | unlog full => simp only [List.cons_append, expected, this, segOf]

theorem expected_only {ls : List Layer} (h : PologOnly ls) : expected ls = (segOf ls, []) := by
  induction ls with
  | nil => rfl
  | cons l ls ih =>
    have hl := h l List.mem_cons_self
    have := ih fun x hx => h x (List.mem_cons_of_mem _ hx)
    cases l with
    | other => exact absurd trivial hl
    | log d => simp only [expected, this, segOf]
    | cls d => simp only [expected, this, segOf]
    | unlog full => simp only [expected, this, segOf]

theorem segOf_unlog {ls : List Layer} (hp : PologOnly ls) (h : ∃ l ∈ ls, IsUnlog l) : ∃ full, segOf ls = .unlogged full := by
  induction ls with
  | nil => obtain ⟨l, hl, _⟩ := h; cases hl
  | cons a ls ih =>
    have hp' : PologOnly ls := fun x hx => hp x (List.mem_cons_of_mem _ hx)
    by_cases ha : IsUnlog a
    · cases a with
      | unlog full => exact ⟨full, by cases segOf ls <;> simp [segOf, Seg.next]⟩
      | log d => exact ha.elim
      | cls d => exact ha.elim
      | other => exact ha.elim
    · obtain ⟨l, hl, hu⟩ := h
      rcases List.mem_cons.mp hl with rfl | hl
      · exact absurd hu ha
      · obtain ⟨full, e⟩ := ih hp' ⟨l, hl, hu⟩
        cases a with
        | unlog full => exact absurd trivial ha
        | log d => exact ⟨none, by rw [segOf, e]; rfl⟩
        | cls d => exact ⟨none, by rw [segOf, e]; rfl⟩
        | other => exact absurd trivial (hp _ List.mem_cons_self)

theorem segOf_cls {ls : List Layer} (hp : PologOnly ls) (h1 : ∀ l ∈ ls, ¬ IsLog l) (h2 : ∀ l ∈ ls, ¬ IsUnlog l) :
    segOf ls = .bare ∨ ∃ d, segOf ls = .logged d false := by
  induction ls with
  | nil => exact .inl rfl
  | cons a ls ih =>
    have := ih (fun x hx => hp x (List.mem_cons_of_mem _ hx)) (fun x hx => h1 x (List.mem_cons_of_mem _ hx))
      (fun x hx => h2 x (List.mem_cons_of_mem _ hx))
    cases a with
    | log d => exact absurd trivial (h1 _ List.mem_cons_self)
    | unlog full => exact absurd trivial (h2 _ List.mem_cons_self)
    | other => exact absurd trivial (hp _ List.mem_cons_self)
    | cls d =>
      refine .inr ⟨d, ?_⟩
      rcases this with e | ⟨d', e⟩ <;> rw [segOf, e] <;> rfl

theorem segOf_noUnlog {ls : List Layer} (hp : PologOnly ls) (h2 : ∀ l ∈ ls, ¬ IsUnlog l) :
    segOf ls = .bare ∨ ∃ d own, segOf ls = .logged d own := by
  induction ls with
  | nil => exact .inl rfl
  | cons a ls ih =>
    have := ih (fun x hx => hp x (List.mem_cons_of_mem _ hx)) (fun x hx => h2 x (List.mem_cons_of_mem _ hx))
    cases a with
    | unlog full => exact absurd trivial (h2 _ List.mem_cons_self)
    | other => exact absurd trivial (hp _ List.mem_cons_self)
    | log d =>
      refine .inr ⟨d, true, ?_⟩
      rcases this with e | ⟨d', own, e⟩ <;> rw [segOf, e] <;> rfl
    | cls d =>
      rcases this with e | ⟨d', own, e⟩
      · exact .inr ⟨d, false, by rw [segOf, e]; rfl⟩
      · cases own
        · exact .inr ⟨d, false, by rw [segOf, e]; rfl⟩
        · exact .inr ⟨d', true, by rw [segOf, e]; rfl⟩

theorem segOf_upper {upper : List Layer} (hp : PologOnly upper) (h1 : ∀ l ∈ upper, ¬ IsLog l)
    (h2 : ∀ l ∈ upper, ¬ IsUnlog l) {lower : List Layer} {d : Deco} (h : segOf lower = .logged d true) :
    segOf (upper ++ lower) = .logged d true := by
  induction upper with
  | nil => exact h
  | cons a ls ih =>
    have := ih (fun x hx => hp x (List.mem_cons_of_mem _ hx)) (fun x hx => h1 x (List.mem_cons_of_mem _ hx))
      (fun x hx => h2 x (List.mem_cons_of_mem _ hx))
    cases a with
    | log d => exact absurd trivial (h1 _ List.mem_cons_self)
    | unlog full => exact absurd trivial (h2 _ List.mem_cons_self)
    | other => exact absurd trivial (hp _ List.mem_cons_self)
    | cls d => rw [List.cons_append, segOf, this]; rfl

theorem amounts_segOf {ls : List Layer} {ws : List Wrap} (hp : PologOnly ls) (h : Amounts ls ws) :
    (segOf ls).wraps = ws := by
  cases h with
  | none => rfl
  | own upper lower d h1 h2 =>
    have hpl : PologOnly lower := fun x hx => hp x (List.mem_append_right _ (List.mem_cons_of_mem _ hx))
    have hpu : PologOnly upper := fun x hx => hp x (List.mem_append_left _ hx)
    have hl := segOf_noUnlog hpl fun x hx => h2 x (List.mem_append_right _ hx)
    rw [segOf_upper hpu h1 (fun x hx => h2 x (List.mem_append_left _ hx)) (d := d)]
    · rfl
    · rcases hl with e | ⟨d', own, e⟩ <;> rw [segOf, e] <;> rfl
  | cls lower d h1 h2 =>
    have hpl : PologOnly lower := fun x hx => hp x (List.mem_cons_of_mem _ hx)
    rcases segOf_cls hpl h1 h2 with e | ⟨d', e⟩ <;> rw [segOf, e] <;> rfl
  | unlogTop lower full => rw [segOf]; cases segOf lower <;> rfl
  | unlogBelow l lower h1 h2 =>
    have hpl : PologOnly lower := fun x hx => hp x (List.mem_cons_of_mem _ hx)
    obtain ⟨full, e⟩ := segOf_unlog hpl h2
    cases l with
    | unlog full => exact absurd trivial h1
    | other => exact absurd trivial (hp _ List.mem_cons_self)
    | log d => rw [segOf, e]; rfl
    | cls d => rw [segOf, e]; rfl

theorem amountsAll_expected {ls : List Layer} {ws : List Wrap} (h : AmountsAll ls ws) :
    (expected ls).1.wraps ++ (expected ls).2 = ws := by
  induction h with
  | polog ls ws hp ha => rw [expected_only hp]; simp [amounts_segOf hp ha]
  | other upper lower us ws hp ha _ ih => rw [expected_polog hp]; simp [amounts_segOf hp ha, ih]

theorem amounts_exists {ls : List Layer} (hp : PologOnly ls) : ∃ ws, Amounts ls ws := by
  classical
  by_cases hu : ∃ l ∈ ls, IsUnlog l
  · cases ls with
    | nil => exact ⟨_, .none⟩
    | cons l ls =>
      by_cases hl : IsUnlog l
      · cases l with
        | unlog full => exact ⟨_, .unlogTop _ _⟩
        | log d => exact hl.elim
        | cls d => exact hl.elim
        | other => exact hl.elim
      · refine ⟨_, .unlogBelow l ls hl ?_⟩
        obtain ⟨x, hx, hux⟩ := hu
        rcases List.mem_cons.mp hx with rfl | hx
        · exact absurd hux hl
        · exact ⟨x, hx, hux⟩
  · have hu' : ∀ l ∈ ls, ¬ IsUnlog l := fun l hl h => hu ⟨l, hl, h⟩
    clear hu
    have key : ∀ ls : List Layer, PologOnly ls → (∀ l ∈ ls, ¬ IsUnlog l) →
        (∀ l ∈ ls, ¬ IsLog l) ∨ ∃ upper lower d, ls = upper ++ .log d :: lower ∧ (∀ l ∈ upper, ¬ IsLog l) := by
      intro ls
      induction ls with
      | nil => intro _ _; exact .inl fun _ h => (by cases h)
      | cons a ls ih =>
        intro hp hu
        cases a with
        | log d => exact .inr ⟨[], ls, d, rfl, fun _ h => (by cases h)⟩
        | unlog full => exact absurd trivial (hu _ List.mem_cons_self)
        | other => exact absurd trivial (hp _ List.mem_cons_self)
        | cls d =>
          rcases ih (fun x hx => hp x (List.mem_cons_of_mem _ hx)) (fun x hx => hu x (List.mem_cons_of_mem _ hx)) with
            h | ⟨upper, lower, d', e, h⟩
          · refine .inl fun l hl => ?_
            rcases List.mem_cons.mp hl with rfl | hl
            · exact fun h => h
            · exact h l hl
          · refine .inr ⟨.cls d :: upper, lower, d', by rw [e]; rfl, fun l hl => ?_⟩
            rcases List.mem_cons.mp hl with rfl | hl
            · exact fun h => h
            · exact h l hl
    rcases key ls hp hu' with h | ⟨upper, lower, d, rfl, h⟩
    · cases ls with
      | nil => exact ⟨_, .none⟩
      | cons a ls =>
        cases a with
        | log d => exact absurd trivial (h _ List.mem_cons_self)
        | unlog full => exact absurd trivial (hu' _ List.mem_cons_self)
        | other => exact absurd trivial (hp _ List.mem_cons_self)
        | cls d => exact ⟨_, .cls ls d (fun l hl => h l (List.mem_cons_of_mem _ hl))
            (fun l hl => hu' l (List.mem_cons_of_mem _ hl))⟩
    · refine ⟨_, .own upper lower d h fun l hl => hu' l ?_⟩
      rcases List.mem_append.mp hl with hl | hl
      · exact List.mem_append_left _ hl
      · exact List.mem_append_right _ (List.mem_cons_of_mem _ hl)

theorem amountsAll_exists (ls : List Layer) : ∃ ws, AmountsAll ls ws := by
  have key : ∀ (ls acc : List Layer), PologOnly acc → ∃ ws, AmountsAll (acc ++ ls) ws := by
    intro ls
    induction ls with
    | nil =>
      intro acc h
      obtain ⟨ws, hw⟩ := amounts_exists h
      exact ⟨ws, by rw [List.append_nil]; exact .polog acc ws h hw⟩
    | cons a ls ih =>
      intro acc h
      by_cases ha : IsOther a
      · cases a with
        | other =>
          obtain ⟨us, hu⟩ := amounts_exists h
          obtain ⟨ws, hw⟩ := ih [] fun _ h => (by cases h)
          exact ⟨_, .other acc ls us ws h hu hw⟩
        | log d => exact ha.elim
        | cls d => exact ha.elim
        | unlog full => exact ha.elim
      · obtain ⟨ws, hw⟩ := ih (acc ++ [a]) (by
          intro x hx
          rcases List.mem_append.mp hx with hx | hx
          · exact h x hx
          · rw [List.mem_singleton.mp hx]; exact ha)
        rw [List.append_assoc] at hw
        exact ⟨ws, hw⟩
  exact key ls [] fun _ h => (by cases h)

end Polog
