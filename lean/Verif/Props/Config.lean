import Verif.Model.Config
import Verif.Props.AttrRefs
import Mathlib.Tactic.Tauto

/-!
C32 — Configuration settings compose predictably.
C40 — What a conversion does to the configuration, and what one conversion can change in the next.
C43 — Attributes of the command line.
-/
namespace Verif
namespace C32
open Config

/-! ### Specification -/

/-- The value given by the last setting that gives one. -/
def last {β : Type} (f : Setting → Option β) (l : List Setting) : Option β := (l.filterMap f).getLast?

/-- The option each setting is about. -/
def filenameOf : Setting → Option Text | .filename f => some f | _ => none
def lastUpdatedOf : Setting → Option Nat | .lastUpdated t => some t | _ => none
def headerFooterOf : Setting → Option Bool | .headerFooter b => some b | _ => none
def cssOf : Setting → Option (List Text) | .css l => some l | _ => none
def backEndOf : Setting → Option Text | .backEnd b => some b | _ => none
def macroOf (n : String) : Setting → Option Nat
  | .macroTemplate n' t => if n' = n then some t else none
  | _ => none
/-- The map given by `WithAttributes`. -/
def attributesOf : Setting → Option (Option Nat) | .attributes r => some r | _ => none

/-- What a setting does to the attribute `k`: sets it (`some (some v)`), unsets it (`some none`), or
leaves it alone. -/
def effect (k : String) : Setting → Option (Option Val)
  | .figureCaption c => if k = "figure-caption" then some (some (.str c)) else none
  | .attr k' v => if k = k' then some (some v) else none
  | .backEnd b =>
    if k = "backend" then some (some (.str b))
    else if k = "basebackend-html" then some (if b ∈ htmlFamily then some vTrue else none)
    else none
  | _ => none

/-- A setting that assigns to the map of attributes. -/
def assigns : Setting → Bool
  | .figureCaption _ => true
  | .attr _ _ => true
  | _ => false

/-! ### Proofs -/

theorem last_cons {β : Type} (f : Setting → Option β) (s : Setting) (l : List Setting) :
    last f (s :: l) = (last f l).or (f s) := by
  unfold last
  rw [List.filterMap_cons]
  split
  · rename_i h; rw [h, Option.or_none]
  · rename_i v h
    rw [h, List.getLast?_cons]
    cases (l.filterMap f).getLast? <;> rfl

theorem last_append {β : Type} (f : Setting → Option β) (l l' : List Setting) :
    last f (l ++ l') = (last f l').or (last f l) := by
  induction l with
  | nil => simp [last]
  | cons s l ih => rw [List.cons_append, last_cons, ih, last_cons, Option.or_assoc]

theorem applyAll_cons_ok {st st' : Heap × Cfg} {s : Setting} {l : List Setting}
    (h : applyAll st (s :: l) = .ok st') : ∃ st1, apply st s = .ok st1 ∧ applyAll st1 l = .ok st' := by
  have h : (match apply st s with | .ok st' => applyAll st' l | .error e => .error e) = Except.ok st' := h
  cases e : apply st s with
  | ok st1 => rw [e] at h; exact ⟨st1, rfl, h⟩
  | error x => rw [e] at h; cases h

theorem field {β : Type} (F : Cfg → β) (f : Setting → Option β)
    (hs : ∀ st s st', apply st s = .ok st' → F st'.2 = (f s).getD (F st.2)) :
    ∀ (l : List Setting) (st st' : Heap × Cfg), applyAll st l = .ok st' →
      F st'.2 = (last f l).getD (F st.2)
  | [], st, st', h => by cases h; rfl
  | s :: l, st, st', h => by
    obtain ⟨st1, h1, h2⟩ := applyAll_cons_ok h
    rw [field F f hs l st1 st' h2, hs st s st1 h1, last_cons]
    cases last f l <;> rfl

/-- The steps that do not change the field. -/
theorem apply_cfg {st st' : Heap × Cfg} {s : Setting} (h : apply st s = .ok st') :
    st'.2 = match s with
      | .lastUpdated t => { st.2 with lastUpdated := t }
      | .attributes r => { st.2 with attrs := r }
      | .headerFooter b => { st.2 with wrap := b }
      | .css l => { st.2 with css := l }
      | .backEnd b => { st.2 with backend := b }
      | .filename f => { st.2 with filename := f }
      | .macroTemplate n t => { st.2 with macros := AMap.set st.2.macros n t }
      | _ => st.2 := by
  cases s with
  | figureCaption c =>
    unfold apply at h; dsimp only at h
    split at h <;> cases h; rfl
  | attr k v =>
    unfold apply at h; dsimp only at h
    split at h <;> cases h; rfl
  | _ => cases h; rfl

/-- **C32** — for every sequence of settings that is accepted, each option has the value of the last
setting about it, or its default; the other settings have no influence. -/
theorem options_last_wins (h : Heap) (fresh : Nat) (l : List Setting) (h' : Heap) (c : Cfg)
    (ok : newConfiguration h fresh l = .ok (h', c)) :
    c.filename = (last filenameOf l).getD [] ∧
    c.lastUpdated = (last lastUpdatedOf l).getD 0 ∧
    c.wrap = (last headerFooterOf l).getD false ∧
    c.css = (last cssOf l).getD [] ∧
    c.backend = (last backEndOf l).getD "html5".toList ∧
    (∀ n, AMap.get c.macros n = last (macroOf n) l) ∧
    c.attrs = (last attributesOf l).getD (some fresh) := by
  have key : ∀ {β : Type} (F : Cfg → β) (f : Setting → Option β),
      (∀ st s st', apply st s = .ok st' → F st'.2 = (f s).getD (F st.2)) →
      f (.backEnd "html5".toList) = none → F c = (last f l).getD (F (initial h fresh).2) := by
    intro β F f hs hn
    have := field F f hs _ _ _ ok
    rw [last_cons, hn, Option.or_none] at this
    exact this
  refine ⟨key Cfg.filename filenameOf ?_ rfl, key Cfg.lastUpdated lastUpdatedOf ?_ rfl,
    key Cfg.wrap headerFooterOf ?_ rfl, key Cfg.css cssOf ?_ rfl, ?_, ?_,
    key Cfg.attrs attributesOf ?_ rfl⟩
  · intro st s st' h; rw [apply_cfg h]; cases s <;> rfl
  · intro st s st' h; rw [apply_cfg h]; cases s <;> rfl
  · intro st s st' h; rw [apply_cfg h]; cases s <;> rfl
  · intro st s st' h; rw [apply_cfg h]; cases s <;> rfl
  · have := field Cfg.backend backEndOf (fun st s st' h => by rw [apply_cfg h]; cases s <;> rfl) _ _ _ ok
    rw [last_cons] at this
    rw [this]
    cases last backEndOf l <;> rfl
  · intro n
    have hs : ∀ st s st', apply st s = .ok st' →
        AMap.get st'.2.macros n = ((macroOf n s).map some).getD (AMap.get st.2.macros n) := by
      intro st s st' h
      rw [apply_cfg h]
      cases s with
      | macroTemplate n' t =>
        show AMap.get (AMap.set st.2.macros n' t) n = _
        rw [AMap.get_set]
        show _ = (Option.map some (if n' = n then some t else none)).getD _
        by_cases e : n' = n
        · rw [if_pos e, if_pos e.symm]; rfl
        · rw [if_neg e, if_neg (fun h => e h.symm)]; rfl
      | _ => rfl
    have := key (fun c => AMap.get c.macros n) (fun s => (macroOf n s).map some) hs rfl
    rw [this]
    have hm : ∀ l, last (fun s => (macroOf n s).map some) l = (last (macroOf n) l).map some := by
      intro l
      induction l with
      | nil => rfl
      | cons s l ih =>
        rw [last_cons, last_cons, ih]
        cases last (macroOf n) l <;> cases macroOf n s <;> rfl
    rw [hm]
    cases last (macroOf n) l <;> rfl
  · intro st s st' h; rw [apply_cfg h]; cases s <;> rfl

/-- One step, on a map that is not nil. -/
theorem step_attrs {hp : Heap} {c : Cfg} {r : Nat} (hr : c.attrs = some r) {s : Setting}
    (hn : attributesOf s = none) : ∃ h' c', apply (hp, c) s = .ok (h', c') ∧ c'.attrs = some r ∧
      (∀ k, AMap.get (h' r) k = (effect k s).getD (AMap.get (hp r) k)) ∧ (∀ i, i ≠ r → h' i = hp i) := by
  have ups : ∀ (hp : Heap) (m : AMap Val), upd hp r m r = m := fun hp m => by simp [upd]
  have upn : ∀ (hp : Heap) (m : AMap Val) i, i ≠ r → upd hp r m i = hp i := fun hp m i hi => by simp [upd, hi]
  cases s with
  | attributes r' => cases hn
  | figureCaption x =>
    refine ⟨upd hp r (AMap.set (hp r) "figure-caption" (.str x)), c, ?_, hr, ?_, fun i hi => upn _ _ i hi⟩
    · unfold apply assign; dsimp only; rw [hr]
    · intro k
      rw [ups, AMap.get_set]
      unfold effect
      dsimp only
      split <;> rfl
  | attr k' v =>
    refine ⟨upd hp r (AMap.set (hp r) k' v), c, ?_, hr, ?_, fun i hi => upn _ _ i hi⟩
    · unfold apply assign; dsimp only; rw [hr]
    · intro k
      rw [ups, AMap.get_set]
      unfold effect
      dsimp only
      split <;> rfl
  | backEnd b =>
    refine ⟨_, _, rfl, hr, ?_, ?_⟩
    · intro k
      show AMap.get (setBackEnd hp c.attrs b r) k = _
      rw [hr]
      unfold setBackEnd baseBackend softSet unset effect
      dsimp only
      by_cases hb : b ∈ htmlFamily
      · rw [if_pos hb, if_pos hb, if_pos hb]
        simp only [ups, AMap.get_set]
        by_cases h1 : k = "backend"
        · subst h1; rw [if_neg (by decide), if_neg (by decide), if_pos rfl, if_pos rfl]; rfl
        · rw [if_neg h1]
          by_cases h2 : k = "basebackend-html"
          · simp [h2]
          · rw [if_neg h2, if_neg h2, if_neg h2]; simp [h1]
      · rw [if_neg hb, if_neg hb, if_neg hb]
        simp only [ups, AMap.get_del, AMap.get_set]
        by_cases h1 : k = "backend"
        · subst h1; rw [if_neg (by decide), if_neg (by decide), if_pos rfl, if_pos rfl]; rfl
        · rw [if_neg h1]
          by_cases h2 : k = "basebackend-html"
          · simp [h2]
          · rw [if_neg h2, if_neg h2, if_neg h2]; simp [h1]
    · intro i hi
      show setBackEnd hp c.attrs b i = hp i
      rw [hr]
      unfold setBackEnd baseBackend softSet unset
      dsimp only
      split <;> simp [upn _ _ i hi]
  | lastUpdated t => exact ⟨hp, _, rfl, hr, fun k => rfl, fun i hi => rfl⟩
  | headerFooter b => exact ⟨hp, _, rfl, hr, fun k => rfl, fun i hi => rfl⟩
  | css l => exact ⟨hp, _, rfl, hr, fun k => rfl, fun i hi => rfl⟩
  | filename f => exact ⟨hp, _, rfl, hr, fun k => rfl, fun i hi => rfl⟩
  | macroTemplate n t => exact ⟨hp, _, rfl, hr, fun k => rfl, fun i hi => rfl⟩

theorem run_attrs (l : List Setting) (hn : ∀ s ∈ l, attributesOf s = none) {r : Nat} :
    ∀ {hp : Heap} {c : Cfg}, c.attrs = some r → ∃ h' c', applyAll (hp, c) l = .ok (h', c') ∧
      c'.attrs = some r ∧ (∀ k, AMap.get (h' r) k = (last (effect k) l).getD (AMap.get (hp r) k)) ∧
      (∀ i, i ≠ r → h' i = hp i) := by
  induction l with
  | nil => intro hp c hr; exact ⟨hp, c, rfl, hr, fun k => rfl, fun i hi => rfl⟩
  | cons s l ih =>
    intro hp c hr
    obtain ⟨h1, c1, e1, r1, g1, o1⟩ := step_attrs (hp := hp) hr (hn s (List.mem_cons_self ..))
    obtain ⟨h2, c2, e2, r2, g2, o2⟩ := ih (fun x hx => hn x (List.mem_cons_of_mem _ hx)) (hp := h1) r1
    refine ⟨h2, c2, ?_, r2, ?_, fun i hi => (o2 i hi).trans (o1 i hi)⟩
    · show (match apply (hp, c) s with | .ok st' => applyAll st' l | .error e => .error e) = _
      rw [e1]; exact e2
    · intro k
      rw [g2, g1, last_cons]
      cases last (effect k) l <;> rfl

/-- The default attributes. -/
def defaults : AMap Val := [("backend", .str "html5".toList), ("basebackend-html", vTrue)]

/-- **C32** — without `WithAttributes`, every sequence of settings is accepted; each attribute has the
value of the last setting that touches it, or its default; no other map is changed. -/
theorem attributes_last_wins (h : Heap) (fresh : Nat) (l : List Setting) (hn : ∀ s ∈ l, attributesOf s = none) :
    ∃ h' c, newConfiguration h fresh l = .ok (h', c) ∧ c.attrs = some fresh ∧
      (∀ k, AMap.get (h' fresh) k = (last (effect k) l).getD (AMap.get defaults k)) ∧
      (∀ i, i ≠ fresh → h' i = h i) := by
  obtain ⟨h', c, e, r, g, o⟩ := run_attrs (.backEnd "html5".toList :: l)
    (fun s hs => by
      rcases List.mem_cons.1 hs with rfl | hs
      · rfl
      · exact hn s hs)
    (r := fresh) (hp := (initial h fresh).1) (c := (initial h fresh).2) rfl
  refine ⟨h', c, e, r, ?_, ?_⟩
  · intro k
    rw [g, last_cons]
    cases last (effect k) l with
    | some v => rfl
    | none =>
      show (effect k (.backEnd "html5".toList)).getD (AMap.get (upd h fresh [("basebackend-html", vTrue)] fresh) k) =
        AMap.get defaults k
      have : upd h fresh [("basebackend-html", vTrue)] fresh = [("basebackend-html", vTrue)] := by simp [upd]
      rw [this]
      unfold effect defaults
      dsimp only
      by_cases h1 : k = "backend"
      · subst h1; rfl
      · rw [if_neg h1]
        by_cases h2 : k = "basebackend-html"
        · subst h2; rfl
        · have n1 : ¬ "backend" = k := fun e => h1 e.symm
          have n2 : ¬ "basebackend-html" = k := fun e => h2 e.symm
          simp [AMap.get_cons, h2, n1, n2]
  · intro i hi
    rw [o i hi]
    show upd h fresh _ i = h i
    simp [upd, hi]

/-- **C32** — `WithAttributes` replaces all attributes, the defaults included: afterwards each attribute
has the value of the last setting that touches it after `WithAttributes`, or the value it has in the map
given (as the settings before left it). -/
theorem attributes_replaced (h : Heap) (fresh r : Nat) (pre post : List Setting) (h1 : Heap) (c1 : Cfg)
    (hpre : newConfiguration h fresh pre = .ok (h1, c1)) (hn : ∀ s ∈ post, attributesOf s = none) :
    ∃ h' c, newConfiguration h fresh (pre ++ .attributes (some r) :: post) = .ok (h', c) ∧ c.attrs = some r ∧
      (∀ k, AMap.get (h' r) k = (last (effect k) post).getD (AMap.get (h1 r) k)) ∧
      (∀ i, i ≠ r → h' i = h1 i) := by
  have app : ∀ (l l' : List Setting) (st : Heap × Cfg), applyAll st (l ++ l') =
      match applyAll st l with | .ok st' => applyAll st' l' | .error e => .error e := by
    intro l l'
    induction l with
    | nil => intro st; rfl
    | cons s l ih =>
      intro st
      show (match apply st s with | .ok st' => applyAll st' (l ++ l') | .error e => .error e) =
        match (match apply st s with | .ok st' => applyAll st' l | .error e => .error e) with
        | .ok st' => applyAll st' l' | .error e => .error e
      cases apply st s with
      | ok st' => exact ih st'
      | error e => rfl
  obtain ⟨h', c, e, r', g, o⟩ := run_attrs post hn (r := r) (hp := h1) (c := { c1 with attrs := some r }) rfl
  refine ⟨h', c, ?_, r', g, o⟩
  have := app (.backEnd "html5".toList :: pre) (.attributes (some r) :: post) (initial h fresh)
  unfold newConfiguration at hpre ⊢
  rw [List.cons_append, hpre] at this
  exact this.trans e

/-- **C32** — settings are rejected (the call panics) iff one of them assigns an attribute while the
last `WithAttributes` before it gave a nil map. -/
theorem crashes_iff (l : List Setting) : ∀ (h : Heap) (c : Cfg),
    (∃ e, applyAll (h, c) l = .error e) ↔
      ∃ pre s post, l = pre ++ s :: post ∧ assigns s = true ∧ (last attributesOf pre).getD c.attrs = none := by
  induction l with
  | nil =>
    intro h c
    constructor
    · rintro ⟨e, he⟩; cases he
    · rintro ⟨pre, s, post, e, _⟩; cases pre <;> cases e
  | cons s l ih =>
    intro h c
    by_cases hb : assigns s = true ∧ c.attrs = none
    · constructor
      · intro _; exact ⟨[], s, l, rfl, hb.1, hb.2⟩
      · intro _
        refine ⟨.nilMap, ?_⟩
        show (match apply (h, c) s with | .ok st' => applyAll st' l | .error e => .error e) = _
        have : apply (h, c) s = .error .nilMap := by
          cases s with
          | figureCaption x => unfold apply assign; dsimp only; rw [hb.2]
          | attr k v => unfold apply assign; dsimp only; rw [hb.2]
          | _ => cases hb.1
        rw [this]
    · have hok : ∃ h' c', apply (h, c) s = .ok (h', c') := by
        cases hc : c.attrs with
        | some r =>
          cases ha : attributesOf s with
          | none => obtain ⟨h', c', e, _⟩ := step_attrs (hp := h) hc ha; exact ⟨h', c', e⟩
          | some x => cases s <;> first | exact ⟨_, _, rfl⟩ | cases ha
        | none =>
          cases s with
          | figureCaption x => exact absurd ⟨rfl, hc⟩ hb
          | attr k v => exact absurd ⟨rfl, hc⟩ hb
          | _ => exact ⟨_, _, rfl⟩
      obtain ⟨h', c', e⟩ := hok
      have hc' : c'.attrs = (attributesOf s).getD c.attrs := by
        have := apply_cfg e
        dsimp only at this
        rw [this]; cases s <;> rfl
      have e1 : applyAll (h, c) (s :: l) = applyAll (h', c') l := by
        show (match apply (h, c) s with | .ok st' => applyAll st' l | .error e => .error e) = _
        rw [e]
      rw [e1, ih h' c', hc']
      constructor
      · rintro ⟨pre, s', post, rfl, hs, hn⟩
        refine ⟨s :: pre, s', post, rfl, hs, ?_⟩
        rw [last_cons]
        cases hl : last attributesOf pre with
        | none => rw [hl] at hn; exact hn
        | some x => rw [hl] at hn; exact hn
      · rintro ⟨pre, s', post, e2, hs, hn⟩
        cases pre with
        | nil =>
          cases e2
          exact absurd ⟨hs, hn⟩ hb
        | cons s0 pre =>
          injection e2 with e2 e3
          subst e2
          refine ⟨pre, s', post, e3, hs, ?_⟩
          rw [last_cons] at hn
          cases hl : last attributesOf pre with
          | none => rw [hl] at hn; exact hn
          | some x => rw [hl] at hn; exact hn

/-- **C32** — without `WithAttributes` and without setting the two attributes by hand, the backend, the
attribute `backend` and the attribute `basebackend-html` agree, and agree with the renderer used. -/
theorem backend_agrees (h : Heap) (fresh : Nat) (l : List Setting) (hn : ∀ s ∈ l, attributesOf s = none)
    (hk : ∀ s ∈ l, ∀ k v, s = .attr k v → k ≠ "backend" ∧ k ≠ "basebackend-html") :
    ∃ h' c, newConfiguration h fresh l = .ok (h', c) ∧
      AMap.get (h' fresh) "backend" = some (.str c.backend) ∧
      ((AMap.get (h' fresh) "basebackend-html").isSome ↔ (rendererFor c.backend).isSome) := by
  obtain ⟨h', c, e, _, g, _⟩ := attributes_last_wins h fresh l hn
  have hb := (options_last_wins h fresh l h' c e).2.2.2.2.1
  have f1 : ∀ l : List Setting, (∀ s ∈ l, ∀ k v, s = .attr k v → k ≠ "backend" ∧ k ≠ "basebackend-html") →
      last (effect "backend") l = (last backEndOf l).map (fun b => some (.str b)) ∧
      last (effect "basebackend-html") l =
        (last backEndOf l).map (fun b => if b ∈ htmlFamily then some vTrue else none) := by
    intro l
    induction l with
    | nil => intro _; exact ⟨rfl, rfl⟩
    | cons s l ih =>
      intro hk
      have ih := ih (fun x hx => hk x (List.mem_cons_of_mem _ hx))
      have hs : effect "backend" s = (backEndOf s).map (fun b => some (.str b)) ∧
          effect "basebackend-html" s =
            (backEndOf s).map (fun b => if b ∈ htmlFamily then some vTrue else none) := by
        cases s with
        | attr k v =>
          have := hk _ (List.mem_cons_self ..) k v rfl
          unfold effect
          dsimp only
          rw [if_neg this.1.symm, if_neg this.2.symm]
          exact ⟨rfl, rfl⟩
        | _ => exact ⟨rfl, rfl⟩
      constructor
      · rw [last_cons, last_cons, ih.1, hs.1]
        cases last backEndOf l <;> cases backEndOf s <;> rfl
      · rw [last_cons, last_cons, ih.2, hs.2]
        cases last backEndOf l <;> cases backEndOf s <;> rfl
  have hr : ∀ b : Text, (rendererFor b).isSome ↔ b ∈ htmlFamily := by
    intro b
    unfold rendererFor htmlFamily
    simp only [List.mem_cons, List.not_mem_nil, or_false]
    split
    · rename_i h; simp only [Option.isSome_some, true_iff]; tauto
    · split
      · simp only [Option.isSome_some, true_iff]; tauto
      · simp only [Option.isSome_none, Bool.false_eq_true, false_iff]; tauto
  refine ⟨h', c, e, ?_, ?_⟩
  · rw [g, (f1 l hk).1, hb]
    cases last backEndOf l <;> rfl
  · rw [g, (f1 l hk).2, hr, hb]
    cases last backEndOf l with
    | none => exact ⟨fun _ => by decide, fun _ => rfl⟩
    | some b =>
      simp only [Option.map_some, Option.getD_some]
      by_cases hm : b ∈ htmlFamily
      · simp [hm]
      · simp [hm]

/-! ### Findings -/

/-- `WithAttributes` interferes: the backend attributes set by default are lost. -/
theorem finding_backend_attributes_lost (h : Heap) (hm : h 5 = [("x", .str ['1'])]) :
    ∃ h' c, newConfiguration h 7 [.attributes (some 5)] = .ok (h', c) ∧ c.backend = "html5".toList ∧
      c.attrs = some 5 ∧ AMap.get (h' 5) "backend" = none ∧ AMap.get (h' 5) "basebackend-html" = none := by
  obtain ⟨h1, c1, e1, _, _, o1⟩ := attributes_last_wins h 7 [] (fun s hs => by cases hs)
  obtain ⟨h', c, e, a, g, _⟩ := attributes_replaced h 7 5 [] [] h1 c1 e1 (fun s hs => by cases hs)
  have hb := (options_last_wins h 7 _ h' c e).2.2.2.2.1
  refine ⟨h', c, e, hb, a, ?_, ?_⟩ <;> (rw [g, o1 5 (by decide), hm]; rfl)

/-- The order of `WithBackEnd` and `WithAttributes` matters: in this order the attributes say nothing of
the backend. -/
theorem finding_order_matters (h : Heap) (hm : h 5 = []) :
    ∃ h' c, newConfiguration h 7 [.backEnd "xhtml5".toList, .attributes (some 5)] = .ok (h', c) ∧
      c.backend = "xhtml5".toList ∧ AMap.get (h' 5) "backend" = none := by
  obtain ⟨h1, c1, e1, _, _, o1⟩ := attributes_last_wins h 7 [.backEnd "xhtml5".toList]
    (fun s hs => by rw [List.mem_singleton] at hs; subst hs; rfl)
  obtain ⟨h', c, e, a, g, _⟩ := attributes_replaced h 7 5 [.backEnd "xhtml5".toList] [] h1 c1 e1 (fun s hs => by cases hs)
  have hb := (options_last_wins h 7 _ h' c e).2.2.2.2.1
  refine ⟨h', c, e, hb, ?_⟩
  rw [g, o1 5 (by decide), hm]; rfl

/-- A nil map followed by an attribute: the call panics. -/
theorem finding_nil_map_panics (h : Heap) :
    newConfiguration h 7 [.attributes none, .attr "x" (.str [])] = .error .nilMap := rfl

/-- A nil map followed by a backend: the backend is set, its attributes are lost. -/
theorem finding_nil_map_backend (h : Heap) :
    ∃ h' c, newConfiguration h 7 [.attributes none, .backEnd "xhtml5".toList] = .ok (h', c) ∧
      c.backend = "xhtml5".toList ∧ c.attrs = none := ⟨_, _, rfl, rfl, rfl⟩

/-- "`""` (defaults to html5)" (configuration.go:93): it does not, the backend is not supported. -/
theorem finding_empty_backend : rendererFor [] = none ∧ ([] : Text) ∉ htmlFamily := by decide

/-- The map given to `WithAttributes` is the caller's: settings change it. -/
theorem finding_caller_map_changed (h : Heap) (hm : h 5 = []) :
    ∃ h' c, newConfiguration h 7 [.attributes (some 5), .attr "x" (.str ['1'])] = .ok (h', c) ∧
      AMap.get (h' 5) "x" = some (.str ['1']) := by
  obtain ⟨h1, c1, e1, _, _, o1⟩ := attributes_last_wins h 7 [] (fun s hs => by cases hs)
  obtain ⟨h', c, e, a, g, _⟩ := attributes_replaced h 7 5 [] [.attr "x" (.str ['1'])] h1 c1 e1
    (fun s hs => by rw [List.mem_singleton] at hs; subst hs; rfl)
  refine ⟨h', c, e, ?_⟩
  rw [g]; rfl

/-- Several settings of the same options, in the middle of others. -/
example (h : Heap) : ∃ h' c, newConfiguration h 0 [.backEnd "html".toList, .attr "x" (.str ['1']), .css [['a']],
    .attr "x" (.str ['2']), .backEnd "pdf".toList, .headerFooter true, .css [['b']]] = .ok (h', c) ∧
    c.backend = "pdf".toList ∧ c.css = [['b']] ∧ c.wrap = true ∧
    AMap.get (h' 0) "x" = some (.str ['2']) ∧ AMap.get (h' 0) "basebackend-html" = none := by
  refine ⟨_, _, rfl, rfl, rfl, rfl, ?_, ?_⟩ <;> rfl

end C32

namespace C40
open Config AttrRefs

/-! ### Specification -/

/-- The attributes a document declares or resets. -/
def written : List DEl → List String
  | [] => []
  | .declare n _ :: t => n :: written t
  | .reset n :: t => n :: written t
  | .content _ :: t => written t

mutual
/-- The attributes referred to by an inline element. -/
def refs : REl → List String
  | .ref n => [n]
  | .parent _ es => refsIn es
  | _ => []
/-- The attributes referred to by inline elements. -/
def refsIn : List REl → List String
  | [] => []
  | e :: es => refs e ++ refsIn es
end

/-- The attribute referred to by a piece of a value. -/
def pieceRefs : Piece → List String
  | .ref n => [n]
  | _ => []

/-- The attributes a document refers to. -/
def docRefs : List DEl → List String
  | [] => []
  | .declare _ ps :: t => ps.flatMap pieceRefs ++ docRefs t
  | .reset _ :: t => docRefs t
  | .content es :: t => refsIn es ++ docRefs t

/-- The last write of a parsed document to an attribute: `some none` if it is a reset. -/
def lastWrite (k : String) : List RElem → Option (Option Val)
  | [] => none
  | .declare n v :: t => (lastWrite k t).or (if n = k then some (some v) else none)
  | .reset n :: t => (lastWrite k t).or (if n = k then some none else none)
  | .content _ :: t => lastWrite k t

/-! ### What a conversion does to the configuration -/

theorem foldl_writes (k : String) : ∀ (doc : List RElem) (m : AMap Val),
    AMap.get (doc.foldl renderWrite m) k = (lastWrite k doc).getD (AMap.get m k)
  | [], m => rfl
  | .declare n v :: t, m => by
    show AMap.get (t.foldl renderWrite (AMap.set m n v)) k =
      ((lastWrite k t).or (if n = k then some (some v) else none)).getD (AMap.get m k)
    rw [foldl_writes k t, AMap.get_set]
    cases lastWrite k t with
    | some x => rfl
    | none =>
      by_cases e : n = k
      · rw [if_pos e, if_pos e.symm]; rfl
      · rw [if_neg e, if_neg (fun h => e h.symm)]; rfl
  | .reset n :: t, m => by
    show AMap.get (t.foldl renderWrite (AMap.del m n)) k =
      ((lastWrite k t).or (if n = k then some none else none)).getD (AMap.get m k)
    rw [foldl_writes k t, AMap.get_del]
    cases lastWrite k t with
    | some x => rfl
    | none =>
      by_cases e : n = k
      · rw [if_pos e, if_pos e.symm]; rfl
      · rw [if_neg e, if_neg (fun h => e h.symm)]; rfl
  | .content es :: t, m => foldl_writes k t m

theorem leading_none (k : String) : ∀ (doc : List RElem) (m : AMap Val), lastWrite k doc = none →
    AMap.get (leadingWrites m doc) k = AMap.get m k
  | [], m, _ => rfl
  | .declare n v :: t, m, h => by
    have h : (lastWrite k t).or (if n = k then some (some v) else none) = none := h
    rw [Option.or_eq_none_iff] at h
    have hn : n ≠ k := by
      intro e; rw [if_pos e] at h; cases h.2
    show AMap.get (leadingWrites (AMap.set m n v) t) k = _
    rw [leading_none k t _ h.1, AMap.get_set_ne _ _ hn.symm]
  | .reset n :: t, m, h => by
    have h : (lastWrite k t).or (if n = k then some none else none) = none := h
    rw [Option.or_eq_none_iff] at h
    have hn : n ≠ k := by
      intro e; rw [if_pos e] at h; cases h.2
    show AMap.get (leadingWrites (AMap.del m n) t) k = _
    rw [leading_none k t _ h.1, AMap.get_del_ne _ hn.symm]
  | .content es :: t, m, _ => rfl

theorem builtins_wf : AMap.WF builtins := by
  unfold AMap.WF; decide

theorem get_renderAttrs (m : AMap Val) (doc : List RElem) (k : String) :
    AMap.get (renderAttrs m doc) k = (lastWrite k doc).getD ((AMap.get builtins k).or (AMap.get m k)) := by
  unfold renderAttrs
  rw [foldl_writes]
  cases h : lastWrite k doc with
  | some x => rfl
  | none =>
    show AMap.get (leadingWrites _ doc) k = (AMap.get builtins k).or (AMap.get m k)
    rw [leading_none k doc _ h, AMap.get_setAll m builtins_wf]
    cases AMap.get builtins k <;> rfl

/-- The values the documentation gives to the captions and to the version label. -/
def documentedDefault (k : String) : Option Val :=
  if k = "figure-caption" then some (.str "Figure".toList)
  else if k = "example-caption" then some (.str "Example".toList)
  else if k = "table-caption" then some (.str "Table".toList)
  else if k = "version-label" then some (.str "version".toList)
  else none

theorem builtins_documented (k : String) : AMap.get builtins k = documentedDefault k := by
  unfold documentedDefault builtins
  simp only [AMap.get, eq_comm (b := k)]

/-- **C40** — the attributes of the configuration after a conversion, exactly: an attribute declared or
reset in the document has its last value, whatever the configuration said; the captions and the version
label have their built-in values; all others are unchanged. No other map changes. -/
theorem config_after (code : List Merge.MEl → Nat) (render : Nat → Option Text)
    (reparse : Option (List REl → List REl)) (h : Heap) (c : Cfg) (doc : List DEl) (r : Nat)
    (hr : c.attrs = some r) : ∃ h' out, convert code render reparse h c doc = .ok (h', out) ∧
      (∀ k, AMap.get (h' r) k = (lastWrite k (parseDoc code render reparse ⟨CtxAttrs.new (h r), []⟩ doc)).getD
        ((documentedDefault k).or (AMap.get (h r) k))) ∧
      (∀ i, i ≠ r → h' i = h i) := by
  refine ⟨upd h r (renderAttrs (h r) (parseDoc code render reparse ⟨CtxAttrs.new (h r), []⟩ doc)),
    shown (parseDoc code render reparse ⟨CtxAttrs.new (h r), []⟩ doc), ?_, ?_, ?_⟩
  · unfold convert; rw [hr]
  · intro k
    rw [show upd h r _ r = _ from if_pos rfl]
    rw [← builtins_documented]
    exact get_renderAttrs _ _ k
  · intro i hi
    exact if_neg hi

theorem lastWrite_none (code : List Merge.MEl → Nat) (render : Nat → Option Text)
    (reparse : Option (List REl → List REl)) (k : String) : ∀ (doc : List DEl) (st : SState), k ∉ written doc →
    lastWrite k (parseDoc code render reparse st doc) = none
  | [], st, _ => rfl
  | .declare n ps :: t, st, h => by
    have h : k ∉ n :: written t := h
    rw [List.mem_cons, not_or] at h
    show (lastWrite k (parseDoc _ _ _ _ t)).or (if n = k then some (some _) else none) = none
    rw [lastWrite_none code render reparse k t _ h.2, if_neg (fun e => h.1 e.symm)]; rfl
  | .reset n :: t, st, h => by
    have h : k ∉ n :: written t := h
    rw [List.mem_cons, not_or] at h
    show (lastWrite k (parseDoc _ _ _ _ t)).or (if n = k then some none else none) = none
    rw [lastWrite_none code render reparse k t _ h.2, if_neg (fun e => h.1 e.symm)]; rfl
  | .content es :: t, st, h => lastWrite_none code render reparse k t _ h

/-- **C40** — an attribute that the document neither declares nor resets, and that is none of the four
built-in ones, is unchanged. -/
theorem others_unchanged (code : List Merge.MEl → Nat) (render : Nat → Option Text)
    (reparse : Option (List REl → List REl)) (h : Heap) (c : Cfg) (doc : List DEl) (r : Nat)
    (hr : c.attrs = some r) (k : String) (h1 : k ∉ written doc) (h2 : k ∉ builtins.map Prod.fst)
    (h' : Heap) (out : List (List REl)) (ok : convert code render reparse h c doc = .ok (h', out)) :
    AMap.get (h' r) k = AMap.get (h r) k := by
  obtain ⟨h1', out', e, g, _⟩ := config_after code render reparse h c doc r hr
  rw [ok] at e
  cases e
  rw [g, lastWrite_none code render reparse k doc _ h1, ← builtins_documented, AMap.get_eq_none_iff.2 h2]
  rfl

/-! ### What a conversion can change in the next -/

mutual
theorem one_congr (render : Nat → Option Text) (get get' : String → Option Val)
    (reparse : Option (List REl → List REl)) : ∀ (e : REl) (cs : AMap CVal), (∀ k ∈ refs e, get k = get' k) →
    replaceOne render get reparse cs e = replaceOne render get' reparse cs e
  | .ref n, cs, h => by
    have hn : get n = get' n := h n (List.mem_singleton.2 rfl)
    have : valueForRef render get n = valueForRef render get' n := by
      unfold valueForRef; rw [hn]
    unfold replaceOne
    rw [this]
  | .counter n v hd, cs, h => rfl
  | .parent n es, cs, h => by
    unfold replaceOne
    rw [loop_congr render get get' reparse es cs h]
  | .str t, cs, h => rfl
  | .val v, cs, h => rfl
  | .leaf n, cs, h => rfl
theorem loop_congr (render : Nat → Option Text) (get get' : String → Option Val)
    (reparse : Option (List REl → List REl)) : ∀ (es : List REl) (cs : AMap CVal), (∀ k ∈ refsIn es, get k = get' k) →
    replaceLoop render get reparse cs es = replaceLoop render get' reparse cs es
  | [], cs, h => rfl
  | e :: es, cs, h => by
    show (⟨(replaceOne render get reparse cs e).1 :: _, _, _⟩ : LoopResult) = _
    rw [one_congr render get get' reparse e cs (fun k hk => h k (List.mem_append_left _ hk)),
      loop_congr render get get' reparse es _ (fun k hk => h k (List.mem_append_right _ hk))]
    rfl
end

theorem pieces_congr (render : Nat → Option Text) (get get' : String → Option Val) (ps : List Piece)
    (h : ∀ k ∈ ps.flatMap pieceRefs, get k = get' k) : slicedValue render get ps = slicedValue render get' ps := by
  unfold slicedValue
  congr 1
  apply List.map_congr_left
  intro p hp
  cases p with
  | ref n =>
    have hn : get n = get' n := h n (List.mem_flatMap.2 ⟨_, hp, List.mem_singleton.2 rfl⟩)
    unfold pieceValue valueForRef
    dsimp only
    rw [hn]
  | text t => rfl
  | other n => rfl

theorem parse_congr (code : List Merge.MEl → Nat) (render : Nat → Option Text)
    (reparse : Option (List REl → List REl)) (m m' : AMap Val) : ∀ (doc : List DEl) (d : AMap Val) (cs : AMap CVal),
    (∀ k ∈ docRefs doc, AMap.get m k = AMap.get m' k) →
    parseDoc code render reparse ⟨⟨m, d⟩, cs⟩ doc = parseDoc code render reparse ⟨⟨m', d⟩, cs⟩ doc
  | [], d, cs, h => rfl
  | .declare n ps :: t, d, cs, h => by
    have hs : slicedValue render (CtxAttrs.get ⟨m, d⟩) ps = slicedValue render (CtxAttrs.get ⟨m', d⟩) ps := by
      apply pieces_congr
      intro k hk
      unfold CtxAttrs.get
      rw [h k (List.mem_append_left _ hk)]
    have ih := parse_congr code render reparse m m' t
      (AMap.set d n (valOf code (slicedValue render (CtxAttrs.get ⟨m, d⟩) ps))) cs
      (fun k hk => h k (List.mem_append_right _ hk))
    show RElem.declare n (valOf code (slicedValue render (CtxAttrs.get ⟨m, d⟩) ps)) ::
        parseDoc code render reparse ⟨⟨m, AMap.set d n (valOf code (slicedValue render (CtxAttrs.get ⟨m, d⟩) ps))⟩, cs⟩ t =
      RElem.declare n (valOf code (slicedValue render (CtxAttrs.get ⟨m', d⟩) ps)) ::
        parseDoc code render reparse ⟨⟨m', AMap.set d n (valOf code (slicedValue render (CtxAttrs.get ⟨m', d⟩) ps))⟩, cs⟩ t
    rw [ih, hs]
  | .reset n :: t, d, cs, h => by
    show RElem.reset n :: parseDoc code render reparse ⟨⟨m, AMap.del d n⟩, cs⟩ t =
      RElem.reset n :: parseDoc code render reparse ⟨⟨m', AMap.del d n⟩, cs⟩ t
    rw [parse_congr code render reparse m m' t _ cs h]
  | .content es :: t, d, cs, h => by
    have hl : replaceRefs render (CtxAttrs.get ⟨m, d⟩) reparse cs es =
        replaceRefs render (CtxAttrs.get ⟨m', d⟩) reparse cs es := by
      unfold replaceRefs
      rw [loop_congr render (CtxAttrs.get ⟨m, d⟩) (CtxAttrs.get ⟨m', d⟩) reparse es cs]
      intro k hk
      unfold CtxAttrs.get
      rw [h k (List.mem_append_left _ hk)]
    show RElem.content (replaceRefs render (CtxAttrs.get ⟨m, d⟩) reparse cs es).1 ::
        parseDoc code render reparse ⟨⟨m, d⟩, (replaceRefs render (CtxAttrs.get ⟨m, d⟩) reparse cs es).2⟩ t =
      RElem.content (replaceRefs render (CtxAttrs.get ⟨m', d⟩) reparse cs es).1 ::
        parseDoc code render reparse ⟨⟨m', d⟩, (replaceRefs render (CtxAttrs.get ⟨m', d⟩) reparse cs es).2⟩ t
    rw [hl, parse_congr code render reparse m m' t d _ (fun k hk => h k (List.mem_append_right _ hk))]

/-- **C40** — the output depends on the configuration only through the attributes the document refers
to. -/
theorem output_depends_on_refs (code : List Merge.MEl → Nat) (render : Nat → Option Text)
    (reparse : Option (List REl → List REl)) (h h' : Heap) (c c' : Cfg) (r r' : Nat) (doc : List DEl)
    (hr : c.attrs = some r) (hr' : c'.attrs = some r')
    (agree : ∀ k ∈ docRefs doc, AMap.get (h r) k = AMap.get (h' r') k) :
    (convert code render reparse h c doc).map Prod.snd = (convert code render reparse h' c' doc).map Prod.snd := by
  unfold convert
  rw [hr, hr']
  show Except.ok (shown _) = Except.ok (shown _)
  rw [show (CtxAttrs.new (h r)) = ⟨h r, []⟩ from rfl, show (CtxAttrs.new (h' r')) = ⟨h' r', []⟩ from rfl,
    parse_congr code render reparse (h r) (h' r') doc [] [] agree]

/-- **C40** — a conversion does not change the result of the next one with the same configuration, if the
second document refers to no attribute that the first one declares or resets, nor to the four built-in
ones. In particular (same document twice) for documents that do not refer to their own attributes. -/
theorem second_conversion (code : List Merge.MEl → Nat) (render : Nat → Option Text)
    (reparse : Option (List REl → List REl)) (h : Heap) (c : Cfg) (doc1 doc2 : List DEl)
    (h1 : Heap) (out1 : List (List REl)) (ok : convert code render reparse h c doc1 = .ok (h1, out1))
    (apart : ∀ k ∈ docRefs doc2, k ∉ written doc1 ∧ k ∉ builtins.map Prod.fst) :
    (convert code render reparse h1 c doc2).map Prod.snd = (convert code render reparse h c doc2).map Prod.snd := by
  cases hr : c.attrs with
  | none => unfold convert at ok; rw [hr] at ok; cases ok
  | some r =>
    exact output_depends_on_refs code render reparse h1 h c c r r doc2 hr hr (fun k hk =>
      others_unchanged code render reparse h c doc1 r hr k (apart k hk).1 (apart k hk).2 h1 out1 ok)

/-! ### The command line tool -/

theorem cli_config (h : Heap) (fresh attrs : Nat) (hne : attrs ≠ fresh) (file : Text) (css : List Text) (b : Text)
    (w : Bool) : ∃ h1 c, newConfiguration h fresh [.filename file, .attributes (some attrs), .css css, .backEnd b,
        .headerFooter w] = .ok (h1, c) ∧ c.attrs = some attrs ∧
      (∀ k, AMap.get (h1 attrs) k = (C32.effect k (.backEnd b)).getD (AMap.get (h attrs) k)) := by
  obtain ⟨h0, c0, e0, _, _, o0⟩ := C32.attributes_last_wins h fresh [.filename file]
    (fun s hs => by rw [List.mem_singleton] at hs; subst hs; rfl)
  obtain ⟨h1, c, e, a, g, _⟩ := C32.attributes_replaced h fresh attrs [.filename file]
    [.css css, .backEnd b, .headerFooter w] h0 c0 e0 (fun s hs => by
      simp only [List.mem_cons, List.not_mem_nil, or_false] at hs
      rcases hs with rfl | rfl | rfl <;> rfl)
  refine ⟨h1, c, e, a, fun k => ?_⟩
  rw [g, o0 attrs hne, C32.last_cons, C32.last_cons, C32.last_cons]
  show ((Option.or (Option.or (Option.or none none) (C32.effect k (.backEnd b))) none)).getD _ = _
  simp

/-- **C40** — files given to the command line tool are converted as if each was given alone, if no file
refers to an attribute declared or reset in a file before it, nor to the four built-in ones. -/
theorem files_isolated (code : List Merge.MEl → Nat) (render : Nat → Option Text)
    (reparse : Option (List REl → List REl)) (attrs : Nat) (css : List Text) (b : Text) (nhf : Bool) (h0 : Heap)
    (files : List (Text × List DEl)) (fresh : Nat) (hf : attrs < fresh)
    (apart : files.Pairwise (fun p q => ∀ k ∈ docRefs q.2, k ∉ written p.2))
    (nobuiltin : ∀ p ∈ files, ∀ k ∈ docRefs p.2, k ∉ builtins.map Prod.fst) :
    ∃ outs : List (List (List REl)), cli code render reparse attrs css b nhf h0 fresh files = .ok outs ∧
      outs.length = files.length ∧
      ∀ (i : Nat) p o, files[i]? = some p → outs[i]? = some o →
        cli code render reparse attrs css b nhf h0 fresh [p] = .ok [o] := by
  have gen : ∀ (files : List (Text × List DEl)) (h : Heap) (fr : Nat), attrs < fr →
      files.Pairwise (fun p q => ∀ k ∈ docRefs q.2, k ∉ written p.2) →
      (∀ p ∈ files, ∀ k ∈ docRefs p.2, k ∉ builtins.map Prod.fst ∧
        (C32.effect k (.backEnd b)).getD (AMap.get (h attrs) k) =
        (C32.effect k (.backEnd b)).getD (AMap.get (h0 attrs) k)) →
      ∃ outs : List (List (List REl)), cli code render reparse attrs css b nhf h fr files = .ok outs ∧
        outs.length = files.length ∧
        ∀ (i : Nat) p o, files[i]? = some p → outs[i]? = some o →
          cli code render reparse attrs css b nhf h0 fresh [p] = .ok [o] := by
    intro files
    induction files with
    | nil => intro h fr _ _ _; exact ⟨[], rfl, rfl, fun i p o hp _ => by simp at hp⟩
    | cons p files ih =>
      intro h fr hfr hp hb
      obtain ⟨file, doc⟩ := p
      obtain ⟨h1, c, e1, a1, g1⟩ := cli_config h fr attrs (by omega) file css b (!nhf)
      obtain ⟨h2, out, e2, g2, _⟩ := config_after code render reparse h1 c doc attrs a1
      have hp' := List.pairwise_cons.1 hp
      obtain ⟨outs, e3, l3, a3⟩ := ih h2 (fr + 1) (by omega) hp'.2 (by
        intro q hq k hk
        have hb' := hb q (List.mem_cons_of_mem _ hq) k hk
        refine ⟨hb'.1, ?_⟩
        have hw := hp'.1 q hq k hk
        rw [g2, lastWrite_none code render reparse k doc _ hw, ← builtins_documented, AMap.get_eq_none_iff.2 hb'.1]
        show (C32.effect k (.backEnd b)).getD (AMap.get (h1 attrs) k) = _
        rw [g1, ← hb'.2]
        cases C32.effect k (.backEnd b) <;> rfl)
      refine ⟨out :: outs, ?_, by simp [l3], ?_⟩
      · unfold cli
        rw [e1]
        dsimp only
        rw [e2]
        dsimp only
        rw [e3]
      · intro i q o hq ho
        cases i with
        | succ i => exact a3 i q o hq ho
        | zero =>
          simp only [List.getElem?_cons_zero, Option.some.injEq] at hq ho
          subst hq
          subst ho
          obtain ⟨h1', c', e1', a1', g1'⟩ := cli_config h0 fresh attrs (by omega) file css b (!nhf)
          obtain ⟨h2', out', e2', _, _⟩ := config_after code render reparse h1' c' doc attrs a1'
          have := output_depends_on_refs code render reparse h1 h1' c c' attrs attrs doc a1 a1' (by
            intro k hk
            rw [g1, g1', (hb (file, doc) (List.mem_cons_self ..) k hk).2])
          rw [e2, e2'] at this
          injection this with this
          have this : out = out' := this
          subst this
          unfold cli
          rw [e1']
          dsimp only
          rw [e2']
          rfl
  exact gen files h0 fresh hf apart (fun p hp k hk => ⟨nobuiltin p hp k hk, rfl⟩)

/-! ### Findings -/

/-- A configuration without anything special. -/
def cfg : Cfg := ⟨[], some 0, 0, false, [], "html5".toList, []⟩

/-- `:x: 1`, `{x}`, `:x: 2`, `{x}`. -/
def redeclaring : List DEl :=
  [.declare "x" [.text ['1']], .content [.ref "x"], .declare "x" [.text ['2']], .content [.ref "x"]]

theorem decl_text (code : List Merge.MEl → Nat) (render : Nat → Option Text) (get : String → Option Val) (c : Char) :
    valOf code (slicedValue render get [.text [c]]) = .str [c] :=
  (C23.declared_spec code render get [.text [c]]).trans rfl

/-- The same document converted twice with the same configuration: different results. -/
theorem finding_twice (code : List Merge.MEl → Nat) (render : Nat → Option Text) :
    ∃ h1 h2, convert code render none (fun _ => []) cfg redeclaring = .ok (h1, [[.str ['1']], [.str ['2']]]) ∧
      convert code render none h1 cfg redeclaring = .ok (h2, [[.str ['2']], [.str ['2']]]) := by
  have e : ∀ m : AMap Val, parseDoc code render none ⟨CtxAttrs.new m, []⟩ redeclaring =
      [.declare "x" (.str ['1']), .content (replaceRefs render (CtxAttrs.get ⟨m, [("x", .str ['1'])]⟩) none [] [.ref "x"]).1,
        .declare "x" (.str ['2']), .content (replaceRefs render (CtxAttrs.get ⟨m, [("x", .str ['2'])]⟩) none [] [.ref "x"]).1] := by
    intro m
    unfold redeclaring
    simp only [parseDoc, parsedElem, substEl, decl_text]
    rfl
  unfold convert
  simp only [e]
  exact ⟨_, _, rfl, rfl⟩

/-- The value given by the caller is lost: a document overrides it in the configuration, and the next
conversion uses the value of the document. (Within the first conversion, the caller's value is used for
references.) -/
theorem finding_caller_value_lost (code : List Merge.MEl → Nat) (render : Nat → Option Text) :
    ∃ h1, convert code render none (fun _ => [("x", .str ['a'])]) cfg [.declare "x" [.text ['b']], .content [.ref "x"]] =
      .ok (h1, [[.str ['a']]]) ∧ AMap.get (h1 0) "x" = some (.str ['b']) := by
  unfold convert
  simp only [parseDoc, parsedElem, substEl, decl_text]
  exact ⟨_, rfl, rfl⟩

/-- Command line, two files: an attribute declared in the first is defined in the second, where it can
no longer be changed. -/
theorem finding_second_file (code : List Merge.MEl → Nat) (render : Nat → Option Text) :
    cli code render none 0 [] "html5".toList true (fun _ => []) 1
      [(['a'], [.declare "x" [.text ['1']]]), (['b'], [.declare "x" [.text ['2']], .content [.ref "x"]])] =
      .ok [[], [[.str ['1']]]] ∧
    cli code render none 0 [] "html5".toList true (fun _ => []) 1
      [(['b'], [.declare "x" [.text ['2']], .content [.ref "x"]])] = .ok [[[.str ['2']]]] := by
  have e1 : ∀ h : Heap, ∀ c : Cfg, convert code render none h c [.declare "x" [.text ['1']]] =
      match c.attrs with
      | none => .error .nilMap
      | some r => .ok (upd h r (renderAttrs (h r) [.declare "x" (.str ['1'])]), []) := by
    intro h c
    unfold convert
    simp only [parseDoc, parsedElem, substEl, decl_text]
    rfl
  have e2 : ∀ h : Heap, ∀ c : Cfg, convert code render none h c [.declare "x" [.text ['2']], .content [.ref "x"]] =
      match c.attrs with
      | none => .error .nilMap
      | some r => .ok (upd h r (renderAttrs (h r) [.declare "x" (.str ['2']),
          .content (replaceRefs render (CtxAttrs.get ⟨h r, [("x", .str ['2'])]⟩) none [] [.ref "x"]).1]),
          [(replaceRefs render (CtxAttrs.get ⟨h r, [("x", .str ['2'])]⟩) none [] [.ref "x"]).1]) := by
    intro h c
    unfold convert
    simp only [parseDoc, parsedElem, substEl, decl_text]
    rfl
  simp only [cli, e1, e2]
  exact ⟨rfl, rfl⟩

/-- `{table-caption}`: undefined in the first conversion, defined in the second. -/
theorem finding_builtin_appears (code : List Merge.MEl → Nat) (render : Nat → Option Text) :
    ∃ h1 h2, convert code render none (fun _ => []) cfg [.content [.ref "table-caption"]] =
      .ok (h1, [[.str "{table-caption}".toList]]) ∧
      convert code render none h1 cfg [.content [.ref "table-caption"]] = .ok (h2, [[.str "Table".toList]]) :=
  ⟨_, _, rfl, rfl⟩

/-- A configuration with a nil map of attributes: the conversion panics. -/
theorem finding_nil_attributes (code : List Merge.MEl → Nat) (render : Nat → Option Text)
    (reparse : Option (List REl → List REl)) (h : Heap) (doc : List DEl) :
    convert code render reparse h { cfg with attrs := none } doc = .error .nilMap := rfl

/-- The hypotheses are met by documents that use attributes. -/
example : ∀ k ∈ docRefs [.declare "y" [.ref "z"], .content [.ref "y", .parent 0 [.ref "z"]]],
    k ∉ written [.declare "x" [.text ['1']], .reset "w"] ∧ k ∉ builtins.map Prod.fst := by decide

end C40

namespace C43
open Config

theorem splitEq_noeq : ∀ (t : Text), '=' ∉ t → splitEq t = [t]
  | [], _ => rfl
  | c :: t, h => by
    rw [List.mem_cons, not_or] at h
    unfold splitEq
    rw [if_neg (fun e => h.1 e.symm), splitEq_noeq t h.2]

theorem splitEq_append (u : Text) : ∀ (t : Text), '=' ∉ t → splitEq (t ++ '=' :: u) = t :: splitEq u
  | [], _ => rfl
  | c :: t, h => by
    rw [List.mem_cons, not_or] at h
    show splitEq (c :: (t ++ '=' :: u)) = _
    conv => lhs; unfold splitEq
    rw [if_neg (fun e => h.1 e.symm), splitEq_append u t h.2]

/-- An option of the command line: a name, or a name and a value (neither contains `=`). -/
inductive Opt where
  | flag (name : Text)
  | value (name : Text) (v : Text)

/-- Its text. -/
def Opt.text : Opt → Text
  | .flag n => n
  | .value n v => n ++ '=' :: v

def Opt.name : Opt → Text
  | .flag n => n
  | .value n _ => n

/-- Its value: empty for a mere name. -/
def Opt.val : Opt → Text
  | .flag _ => []
  | .value _ v => v

/-- No `=` in the name, none in the value. -/
def Opt.Ok : Opt → Prop
  | .flag n => '=' ∉ n
  | .value n v => '=' ∉ n ∧ '=' ∉ v

theorem parse_one (m : AMap Val) (o : Opt) (h : o.Ok) :
    parseAttribute m o.text = AMap.set m (String.ofList o.name) (.str o.val) := by
  cases o with
  | flag n =>
    unfold parseAttribute
    rw [show (Opt.flag n).text = n from rfl, splitEq_noeq n h]; rfl
  | value n v =>
    have h : '=' ∉ n ∧ '=' ∉ v := h
    unfold parseAttribute
    rw [show (Opt.value n v).text = n ++ '=' :: v from rfl, splitEq_append v n h.1, splitEq_noeq v h.2]; rfl

/-- **C43** — for every list of `-a` options, each attribute has the value of the last option naming it,
and attributes not named are not set. -/
theorem attributes_of_options (l : List Opt) (h : ∀ o ∈ l, o.Ok) (name : Text) :
    AMap.get (parseAttributes (l.map Opt.text)) (String.ofList name) =
      ((l.filter (fun o => o.name = name)).getLast?).map (fun o => .str o.val) := by
  have gen : ∀ (l : List Opt) (m : AMap Val), (∀ o ∈ l, o.Ok) →
      AMap.get ((l.map Opt.text).foldl parseAttribute m) (String.ofList name) =
        (((l.filter (fun o => o.name = name)).getLast?).map (fun o => Val.str o.val)).or
          (AMap.get m (String.ofList name)) := by
    intro l
    induction l with
    | nil => intro m _; rfl
    | cons o l ih =>
      intro m h
      rw [List.map_cons, List.foldl_cons, ih _ (fun x hx => h x (List.mem_cons_of_mem _ hx)),
        parse_one m o (h o (List.mem_cons_self ..)), AMap.get_set, List.filter_cons]
      by_cases e : o.name = name
      · rw [if_pos (by rw [e]), if_pos (decide_eq_true e), List.getLast?_cons]
        cases (l.filter (fun o => o.name = name)).getLast? <;> rfl
      · rw [if_neg (fun h => e (String.ofList_injective h.symm)), if_neg (by simpa using e)]
  rw [parseAttributes, gen l [] h]
  simp

/-- A value with `=` is cut at the second `=`. -/
theorem finding_value_with_equals :
    AMap.get (parseAttributes ["x=a=b".toList]) "x" = some (.str ['a']) := by decide

/-- `name!` (documented as unsetting an attribute) sets an attribute named `name!`. -/
theorem finding_unset_not_supported :
    AMap.get (parseAttributes ["x".toList, "x!".toList]) "x" = some (.str []) ∧
    AMap.get (parseAttributes ["x".toList, "x!".toList]) "x!" = some (.str []) := by decide

example : parseAttributes ((([.value ['x'] ['1'], .flag ['y'], .value ['x'] ['2']] : List Opt)).map Opt.text) =
    [("x", .str ['2']), ("y", .str [])] := by decide

end C43
end Verif
