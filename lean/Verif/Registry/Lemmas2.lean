import Verif.Registry.Lemmas

namespace Polog
open StackSpec

structure RegInv (r : FRegistry) (objs : List FObj) : Prop where
  wf : r.WF
  lt : ∀ f ∈ objs, f.id < r.next
  uniq : ∀ f ∈ objs, ∀ g ∈ objs, f.id = g.id → f = g
  dec : ∀ f ∈ objs, ∀ o, Dict.get? f.id r.decorated = some o → o ∈ objs ∧ bottom o = bottom f
  unl : ∀ f ∈ objs, ∀ o, Dict.get? f.id r.unlogged = some o → o ∈ objs ∧ bottom o = bottom f

theorem RegInv.orig {r : FRegistry} {objs : List FObj} (h : RegInv r objs) {f : FObj} (hf : f ∈ objs) :
    r.original f ∈ objs ∧ bottom (r.original f) = bottom f := by
  rw [FRegistry.original]
  split
  · next o e => exact h.dec f hf o e
  · split
    · next o e => exact h.unl f hf o e
    · exact ⟨hf, rfl⟩

/-- Only entries of functions with the bottom `b` and new ones changed. -/
structure BFrame (r r' : FRegistry) (objs : List FObj) (b : Nat) : Prop where
  le : r.next ≤ r'.next
  dec : ∀ i, i < r.next → (∀ x ∈ objs, bottom x = b → x.id ≠ i) →
    Dict.get? i r'.decorated = Dict.get? i r.decorated
  decOld : ∀ i, i < r.next → Dict.get? i r'.decorated = none ∨ Dict.get? i r'.decorated = Dict.get? i r.decorated
  unl : ∀ i, i < r.next → Dict.get? i r'.unlogged = Dict.get? i r.unlogged
  forb : ∀ i, (∀ x ∈ objs, bottom x = b → x.id ≠ i) → (i ∈ r'.forbidden ↔ i ∈ r.forbidden)
  meth : ∀ i, (∀ x ∈ objs, bottom x = b → x.id ≠ i) → (i ∈ r'.methods ↔ i ∈ r.methods)

theorem BFrame.refl (r : FRegistry) (objs : List FObj) (b : Nat) : BFrame r r objs b :=
  ⟨Nat.le_refl _, fun _ _ _ => rfl, fun _ _ => .inr rfl, fun _ _ => rfl, fun _ _ => Iff.rfl, fun _ _ => Iff.rfl⟩

theorem BFrame.trans {r1 r2 r3 : FRegistry} {objs : List FObj} {b : Nat} (h1 : BFrame r1 r2 objs b)
    (h2 : BFrame r2 r3 objs b) : BFrame r1 r3 objs b := by
  refine ⟨Nat.le_trans h1.le h2.le, ?_, ?_, ?_, ?_, ?_⟩
  · intro i hi hx
    rw [h2.dec i (Nat.lt_of_lt_of_le hi h1.le) hx, h1.dec i hi hx]
  · intro i hi
    rcases h2.decOld i (Nat.lt_of_lt_of_le hi h1.le) with e | e
    · exact .inl e
    · rw [e]; exact h1.decOld i hi
  · intro i hi
    rw [h2.unl i (Nat.lt_of_lt_of_le hi h1.le), h1.unl i hi]
  · intro i hx; rw [h2.forb i hx, h1.forb i hx]
  · intro i hx; rw [h2.meth i hx, h1.meth i hx]

theorem BFrame.next (r : FRegistry) (objs : List FObj) (b : Nat) :
    BFrame r { r with next := r.next + 1 } objs b :=
  ⟨Nat.le_succ _, fun _ _ _ => rfl, fun _ _ => .inr rfl, fun _ _ => rfl, fun _ _ => Iff.rfl, fun _ _ => Iff.rfl⟩

theorem BFrame.remove {r : FRegistry} {objs : List FObj} {f : FObj} (hw : r.WF)
    (hf : f ∈ objs) (ho : r.original f ∈ objs) (hbo : bottom (r.original f) = bottom f) :
    BFrame r (r.remove f) objs (bottom f) := by
  rw [FRegistry.remove]
  split
  · refine ⟨Nat.le_refl _, ?_, ?_, fun _ _ => rfl, fun _ _ => Iff.rfl, ?_⟩
    · intro i hi hx
      simp only
      rw [Dict.get?_erase hw.dict, if_neg (hx f hf rfl)]
    · intro i hi
      simp only
      rw [Dict.get?_erase hw.dict]
      split
      · exact .inl rfl
      · exact .inr rfl
    · intro i hx
      simp only [List.mem_filter, bne_iff_ne, ne_eq]
      have := hx _ ho hbo
      constructor
      · exact fun h => h.1
      · exact fun h => ⟨h, fun e => this e.symm⟩
  · exact .refl _ _ _

theorem BFrame.forbid {r : FRegistry} {objs : List FObj} {f : FObj} {b : Nat}
    (ho : r.original f ∈ objs) (hbo : bottom (r.original f) = b) :
    BFrame r (r.forbid f) objs b := by
  rw [FRegistry.forbid]
  split
  · exact .refl _ _ _
  · refine ⟨Nat.le_refl _, fun _ _ _ => rfl, fun _ _ => .inr rfl, fun _ _ => rfl, ?_, fun _ _ => Iff.rfl⟩
    intro i hx
    have := hx _ ho hbo
    simp only [List.mem_cons]
    constructor
    · rintro (h | h)
      · exact absurd h.symm this
      · exact h
    · exact .inr

theorem BFrame.add {r : FRegistry} {objs : List FObj} {w o : FObj} {b : Nat} (m : Bool)
    (r0 : FRegistry) (hr0 : BFrame r0 r objs b) (hn : r0.next ≤ w.id)
    (ho : o ∈ objs) (hbo : bottom o = b) : BFrame r0 (r.add w o m) objs b := by
  refine ⟨hr0.le, ?_, ?_, hr0.unl, hr0.forb, ?_⟩
  · intro i hi hx
    simp only [FRegistry.add]
    rw [Dict.get?_set_ne (by omega)]
    exact hr0.dec i hi hx
  · intro i hi
    simp only [FRegistry.add]
    rw [Dict.get?_set_ne (by omega)]
    exact hr0.decOld i hi
  · intro i hx
    simp only [FRegistry.add]
    split
    · have := hx _ ho hbo
      rw [List.mem_cons, hr0.meth i hx]
      constructor
      · rintro (h | h)
        · exact absurd h.symm this
        · exact h
      · exact .inr
    · exact hr0.meth i hx

theorem BFrame.addUnlogged {r : FRegistry} {objs : List FObj} {w o : FObj} {b : Nat}
    (r0 : FRegistry) (hr0 : BFrame r0 r objs b) (hn : r0.next ≤ w.id) : BFrame r0 (r.addUnlogged w o) objs b := by
  refine ⟨hr0.le, hr0.dec, hr0.decOld, ?_, hr0.forb, hr0.meth⟩
  intro i hi
  simp only [FRegistry.addUnlogged]
  rw [Dict.get?_set_ne (by omega)]
  exact hr0.unl i hi

theorem original_after {r r' : FRegistry} {objs : List FObj} {b : Nat} (h : RegInv r objs)
    (hf : BFrame r r' objs b) {f : FObj} (hm : f ∈ objs) :
    r'.original f ∈ objs ∧ bottom (r'.original f) = bottom f := by
  rw [FRegistry.original, hf.unl _ (h.lt f hm)]
  rcases hf.decOld _ (h.lt f hm) with e | e
  · rw [e]
    dsimp only
    split
    · next o e => exact h.unl f hm o e
    · exact ⟨hm, rfl⟩
  · rw [e]
    exact h.orig hm

/-- What a decoration does to the registry, whatever was done before. -/
structure Made (r r' : FRegistry) (objs : List FObj) (f g : FObj) : Prop where
  frame : BFrame r r' objs (bottom f)
  bot : bottom g = bottom f
  new : g ∈ objs ∨ g.id = r.next ∨ g.id = r.next + 1
  newDec : ∀ i o, r.next ≤ i → Dict.get? i r'.decorated = some o → o ∈ objs ∧ bottom o = bottom f
  newUnl : ∀ i o, r.next ≤ i → Dict.get? i r'.unlogged = some o → o ∈ objs ∧ bottom o = bottom f

theorem made_unlogFn {r : FRegistry} {objs : List FObj} (h : RegInv r objs) (full : Option Bool) {f : FObj}
    (hf : f ∈ objs) : Made r (r.unlogFn full f).2 objs f (r.unlogFn full f).1 ∧ (r.unlogFn full f).1.id = r.next := by
  obtain ⟨h1, h2⟩ := h.orig hf
  rw [FRegistry.unlogFn]
  split
  · next hd =>
    have hr := BFrame.remove h.wf hf h1 h2
    obtain ⟨k1, k2⟩ := original_after h hr h1
    have hfr := hr.trans (BFrame.forbid k1 (k2.trans h2))
    have hn : ((r.remove f).forbid (r.original f)).next = r.next := by rw [forbid_next, remove_next]
    refine ⟨⟨BFrame.addUnlogged _ (hfr.trans (.next _ _ _)) (by simp [FObj.id, hn]), h2, .inr (.inl hn), ?_, ?_⟩, hn⟩
    · intro i o hi e
      change Dict.get? i ((r.remove f).forbid (r.original f)).decorated = some o at e
      rw [(forbid_rest _ _).2.1, (WF_remove h.wf f).dec i (by rw [remove_next]; exact hi)] at e
      cases e
    · intro i o hi e
      change Dict.get? i (Dict.set ((r.remove f).forbid (r.original f)).next (r.original f)
        ((r.remove f).forbid (r.original f)).unlogged) = some o at e
      rw [Dict.get?_set] at e
      split at e
      · cases e; exact ⟨h1, h2⟩
      · rw [(forbid_rest _ _).1, (remove_rest _ _).1, h.wf.unl i hi] at e
        cases e
  · next hd =>
    have hfr := BFrame.forbid (r := r) (objs := objs) h1 h2
    have hn : (r.forbid f).next = r.next := forbid_next _ _
    refine ⟨⟨BFrame.addUnlogged _ (hfr.trans (.next _ _ _)) (by simp [FObj.id, hn]), rfl, .inr (.inl hn), ?_, ?_⟩, hn⟩
    · intro i o hi e
      change Dict.get? i (r.forbid f).decorated = some o at e
      rw [(forbid_rest _ _).2.1, h.wf.dec i hi] at e
      cases e
    · intro i o hi e
      change Dict.get? i (Dict.set (r.forbid f).next f (r.forbid f).unlogged) = some o at e
      rw [Dict.get?_set] at e
      split at e
      · cases e; exact ⟨hf, rfl⟩
      · rw [(forbid_rest _ _).1, h.wf.unl i hi] at e
        cases e

theorem RegInv_next {r : FRegistry} {objs : List FObj} (h : RegInv r objs) :
    RegInv { r with next := r.next + 1 } objs :=
  ⟨WF_next h.wf, fun f hf => Nat.lt_succ_of_lt (h.lt f hf), h.uniq, h.dec, h.unl⟩

theorem made_logFn {r : FRegistry} {objs : List FObj} (h : RegInv r objs) (d : Deco) (m : Bool) {f : FObj}
    (hf : f ∈ objs) : Made r (r.logFn d m f).2 objs f (r.logFn d m f).1 := by
  obtain ⟨h1, h2⟩ := h.orig hf
  have hN := RegInv_next h
  have hadd : ∀ g ∈ objs, bottom g = bottom f →
      Made r ((({ r with next := r.next + 1 } : FRegistry).remove g).add (.logged r.next d (r.original f))
        (r.original f) m) objs f (.logged r.next d (r.original f)) := by
    intro g hg hgb
    obtain ⟨g1, g2⟩ := hN.orig hg
    have hr := BFrame.remove hN.wf hg g1 g2
    have hwr := WF_remove hN.wf g
    have hnx := remove_next ({ r with next := r.next + 1 } : FRegistry) g
    have hu := (remove_rest ({ r with next := r.next + 1 } : FRegistry) g).1
    have hdec0 : ∀ i, r.next ≤ i → Dict.get? i (({ r with next := r.next + 1 } : FRegistry).remove g).decorated =
        none := by
      intro i hi
      by_cases e : i = r.next
      · subst e
        rcases hr.decOld _ (Nat.lt_succ_self _) with e | e
        · exact e
        · rw [e]; exact h.wf.dec _ (Nat.le_refl _)
      · exact hwr.dec i (by rw [hnx]; simp only; omega)
    rw [hgb] at hr
    refine ⟨BFrame.add m r ((BFrame.next _ _ _).trans hr) (Nat.le_refl _) h1 h2, h2, .inr (.inl rfl), ?_, ?_⟩
    · intro i o hi e
      simp only [FRegistry.add] at e
      rw [Dict.get?_set] at e
      split at e
      · cases e; exact ⟨h1, h2⟩
      · rw [hdec0 i hi] at e; cases e
    · intro i o hi e
      simp only [FRegistry.add] at e
      rw [hu, h.wf.unl i hi] at e
      cases e
  have hsame : Made r { r with next := r.next + 1 } objs f f := by
    refine ⟨.next _ _ _, rfl, .inl hf, ?_, ?_⟩
    · intro i o hi e
      rw [show Dict.get? i ({ r with next := r.next + 1 } : FRegistry).decorated = none from h.wf.dec i hi] at e
      cases e
    · intro i o hi e
      rw [show Dict.get? i ({ r with next := r.next + 1 } : FRegistry).unlogged = none from h.wf.unl i hi] at e
      cases e
  rw [FRegistry.logFn, FRegistry.choose]
  split
  · obtain ⟨k, kid⟩ := made_unlogFn hN none h1
    refine ⟨(BFrame.next _ _ _).trans (h2 ▸ k.frame), k.bot.trans h2, .inr (.inr kid), ?_, ?_⟩
    · intro i o hi e
      by_cases hi' : i = r.next
      · subst hi'
        rcases k.frame.decOld _ (Nat.lt_succ_self _) with e' | e'
        · rw [e'] at e; cases e
        · rw [e', show Dict.get? r.next ({ r with next := r.next + 1 } : FRegistry).decorated = none from
            h.wf.dec _ hi] at e
          cases e
      · obtain ⟨a, b⟩ := k.newDec i o (by simp only; omega) e
        exact ⟨a, b.trans h2⟩
    · intro i o hi e
      by_cases hi' : i = r.next
      · subst hi'
        rw [k.frame.unl _ (Nat.lt_succ_self _), show Dict.get? r.next
          ({ r with next := r.next + 1 } : FRegistry).unlogged = none from h.wf.unl _ hi] at e
        cases e
      · obtain ⟨a, b⟩ := k.newUnl i o (by simp only; omega) e
        exact ⟨a, b.trans h2⟩
  · split
    · split
      · exact hadd f hf rfl
      · split
        · exact hsame
        · exact hadd f hf rfl
    · exact hadd _ h1 h2

theorem made_apply {r : FRegistry} {objs : List FObj} (h : RegInv r objs) (l : Layer) {f : FObj}
    (hf : f ∈ objs) : Made r (l.apply f r).2 objs f (l.apply f r).1 := by
  cases l with
  | log d => exact made_logFn h d false hf
  | cls d => exact made_logFn h d true hf
  | unlog full => exact (made_unlogFn h full hf).1
  | other =>
    refine ⟨.next _ _ _, rfl, .inr (.inl rfl), ?_, ?_⟩
    · intro i o hi e
      rw [show Dict.get? i (Layer.other.apply f r).2.decorated = none from h.wf.dec i hi] at e
      cases e
    · intro i o hi e
      rw [show Dict.get? i (Layer.other.apply f r).2.unlogged = none from h.wf.unl i hi] at e
      cases e

theorem RegInv_apply {r : FRegistry} {objs : List FObj} (h : RegInv r objs) (l : Layer) {f : FObj}
    (hf : f ∈ objs) : RegInv (l.apply f r).2 ((l.apply f r).1 :: objs) := by
  have k := made_apply h l hf
  obtain ⟨w1, w2⟩ := WF_apply h.wf l (h.lt f hf)
  generalize (l.apply f r).1 = g at k w2
  generalize (l.apply f r).2 = r' at k w1 w2
  have hnew : g ∈ objs ∨ r.next ≤ g.id := by
    rcases k.new with e | e | e
    · exact .inl e
    · exact .inr (Nat.le_of_eq e.symm)
    · exact .inr (by omega)
  have hold : ∀ x ∈ objs, ∀ o, Dict.get? x.id r'.decorated = some o → o ∈ objs ∧ bottom o = bottom x := by
    intro x hx o e
    rcases k.frame.decOld _ (h.lt x hx) with e' | e'
    · rw [e'] at e; cases e
    · rw [e'] at e; exact h.dec x hx o e
  have holdu : ∀ x ∈ objs, ∀ o, Dict.get? x.id r'.unlogged = some o → o ∈ objs ∧ bottom o = bottom x := by
    intro x hx o e
    rw [k.frame.unl _ (h.lt x hx)] at e
    exact h.unl x hx o e
  refine ⟨w1, ?_, ?_, ?_, ?_⟩
  · intro x hx
    rcases List.mem_cons.mp hx with rfl | hx
    · exact w2
    · exact Nat.lt_of_lt_of_le (h.lt x hx) k.frame.le
  · intro x hx' y hy' e
    rcases List.mem_cons.mp hx' with hxg | hx <;> rcases List.mem_cons.mp hy' with hyg | hy
    · rw [hxg, hyg]
    · subst hxg
      rcases hnew with hn | hn
      · exact h.uniq _ hn _ hy e
      · have := h.lt y hy; omega
    · subst hyg
      rcases hnew with hn | hn
      · exact h.uniq _ hx _ hn e
      · have := h.lt x hx; omega
    · exact h.uniq x hx y hy e
  · intro x hx o e
    rcases List.mem_cons.mp hx with rfl | hx
    · rcases hnew with hn | hn
      · obtain ⟨a, b⟩ := hold _ hn o e
        exact ⟨List.mem_cons_of_mem _ a, b⟩
      · obtain ⟨a, b⟩ := k.newDec _ o hn e
        exact ⟨List.mem_cons_of_mem _ a, b.trans k.bot.symm⟩
    · obtain ⟨a, b⟩ := hold x hx o e
      exact ⟨List.mem_cons_of_mem _ a, b⟩
  · intro x hx o e
    rcases List.mem_cons.mp hx with rfl | hx
    · rcases hnew with hn | hn
      · obtain ⟨a, b⟩ := holdu _ hn o e
        exact ⟨List.mem_cons_of_mem _ a, b⟩
      · obtain ⟨a, b⟩ := k.newUnl _ o hn e
        exact ⟨List.mem_cons_of_mem _ a, b.trans k.bot.symm⟩
    · obtain ⟨a, b⟩ := holdu x hx o e
      exact ⟨List.mem_cons_of_mem _ a, b⟩

theorem RegInv_define {r : FRegistry} {objs : List FObj} (h : RegInv r objs) : RegInv r.defFn.2 (r.defFn.1 :: objs) := by
  have hd : ∀ i, r.next ≤ i → Dict.get? i r.defFn.2.decorated = none := fun i hi => h.wf.dec i hi
  have hu : ∀ i, r.next ≤ i → Dict.get? i r.defFn.2.unlogged = none := fun i hi => h.wf.unl i hi
  refine ⟨WF_next h.wf, ?_, ?_, ?_, ?_⟩
  · intro x hx
    rcases List.mem_cons.mp hx with rfl | hx
    · exact Nat.lt_succ_self _
    · exact Nat.lt_succ_of_lt (h.lt x hx)
  · intro x hx y hy e
    rcases List.mem_cons.mp hx with rfl | hx <;> rcases List.mem_cons.mp hy with rfl | hy
    · rfl
    · have := h.lt y hy
      change r.next = y.id at e
      omega
    · have := h.lt x hx
      change x.id = r.next at e
      omega
    · exact h.uniq x hx y hy e
  · intro x hx o e
    rcases List.mem_cons.mp hx with rfl | hx
    · exact absurd (e.symm.trans (hd r.next (Nat.le_refl _))) (by simp)
    · obtain ⟨a, b⟩ := h.dec x hx o e
      exact ⟨List.mem_cons_of_mem _ a, b⟩
  · intro x hx o e
    rcases List.mem_cons.mp hx with rfl | hx
    · exact absurd (e.symm.trans (hu r.next (Nat.le_refl _))) (by simp)
    · obtain ⟨a, b⟩ := h.unl x hx o e
      exact ⟨List.mem_cons_of_mem _ a, b⟩

theorem FHistory.inv {r : FRegistry} {objs : List FObj} (h : FHistory r objs) : RegInv r objs := by
  induction h with
  | start => exact ⟨FRegistry.WF_empty, fun _ h => (by cases h), fun _ h => (by cases h), fun _ h => (by cases h),
      fun _ h => (by cases h)⟩
  | define _ ih => exact RegInv_define ih
  | decorate l f _ hf ih => exact RegInv_apply ih l hf

end Polog
