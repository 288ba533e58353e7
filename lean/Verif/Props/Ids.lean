import Verif.Model.Ids
import Verif.Props.Aggregate
import Verif.Props.Toc
import Mathlib.Data.List.Nodup
import Mathlib.Data.List.Perm.Subperm
/-! C14: section identifiers are unique and always found. -/
namespace Verif.C14
open Forest

/-! ### Specification -/

/-- The section in an element. -/
def asSection : Elem → Option Sec
  | .sect s => some s
  | _ => none

/-- The sections of the resulting document, in document order. -/
def sections (d : AState) : List Sec := (flatten d.agg.tree).filterMap asSection

/-- The same element, up to the identifier of a section. -/
def SameButId : Elem → Elem → Prop
  | .sect s, .sect s' => s'.level = s.level ∧ s'.title = s.title ∧ s'.titled = s.titled
  | a, b => a = b

/-- The entry of a section in the table of contents. -/
def tocEntry (s : Sec) : Toc := ⟨s.id, s.level⟩

/-- The block has (or contains a block with) the identifier. -/
def blockClaims (id : Text) : Elem → Prop
  | .block _ rs => ∃ p ∈ rs, p.1 = id
  | _ => False

/-- The element declares `toclevels`. -/
def declaresTocLevels : Elem → Prop
  | .decl n _ => n = "toclevels"
  | .header _ hs => ∃ v, HElem.decl "toclevels" v ∈ hs
  | _ => False

/-! ### Candidates -/

theorem digitChar_inj {a b : Nat} (ha : a < 10) (hb : b < 10) (h : Nat.digitChar a = Nat.digitChar b) : a = b := by
  have h1 := Nat.toNat_digitChar_of_lt_ten ha
  have h2 := Nat.toNat_digitChar_of_lt_ten hb
  rw [h] at h1; omega

theorem itoa_inj : ∀ (m n : Nat), itoa m = itoa n → m = n := by
  intro m
  induction m using Nat.strongRecOn with
  | _ m ih =>
    intro n h
    unfold itoa at h
    rw [Nat.toDigits_eq_if (by decide : 1 < 10), Nat.toDigits_eq_if (n := n) (by decide : 1 < 10)] at h
    by_cases hm : m < 10 <;> by_cases hn : n < 10
    · simp only [hm, hn, if_true] at h
      exact digitChar_inj hm hn (by simpa using h)
    · simp only [hm, hn, if_true, if_false] at h
      have := congrArg List.length h
      have hp := Nat.length_toDigits_pos (b := 10) (n := n / 10)
      simp at this
    · simp only [hm, hn, if_true, if_false] at h
      have := congrArg List.length h
      have hp := Nat.length_toDigits_pos (b := 10) (n := m / 10)
      simp at this
    · simp only [hm, hn, if_false] at h
      have h1 := List.append_inj' h (by simp)
      have e1 := ih (m / 10) (by omega) (n / 10) h1.1
      have e2 := digitChar_inj (Nat.mod_lt m (by decide)) (Nat.mod_lt n (by decide)) (by simpa using h1.2)
      omega

theorem candidate_inj (base : Text) {i j : Nat} (h : candidate base i = candidate base j) : i = j := by
  unfold candidate at h
  split at h <;> split at h
  · omega
  · have := congrArg List.length h; simp at this
  · have := congrArg List.length h; simp at this
  · have := List.append_cancel_left h
    exact itoa_inj i j (by simpa using this)

theorem get_some_mem : ∀ (refs : Refs) (id : Text), (refs.get id).isSome = true → id ∈ refs.map Prod.fst
  | [], id, h => by simp [Refs.get] at h
  | (k, v) :: m, id, h => by
    unfold Refs.get at h
    by_cases e : k = id
    · simp [e]
    · rw [if_neg e] at h
      exact List.mem_cons_of_mem _ (get_some_mem m id h)

theorem mem_get_some : ∀ (refs : Refs) (id : Text), id ∈ refs.map Prod.fst → (refs.get id).isSome = true
  | [], id, h => by simp at h
  | (k, v) :: m, id, h => by
    unfold Refs.get
    by_cases e : k = id
    · simp [e]
    · rw [if_neg e]
      exact mem_get_some m id (by simpa [Ne.symm e] using h)

theorem loop_none (refs : Refs) (base : Text) : ∀ (n i : Nat), resolveLoop refs base n i = none →
    ∀ j < n, (refs.get (candidate base (i + j))).isSome = true
  | 0, _, _, _, hj => by omega
  | n + 1, i, h, j, hj => by
    unfold resolveLoop at h
    by_cases hs : (refs.get (candidate base i)).isSome = true
    · rw [if_pos hs] at h
      cases j with
      | zero => exact hs
      | succ j => have := loop_none refs base n (i + 1) h j (by omega); rwa [Nat.add_assoc, Nat.add_comm 1] at this
    · rw [if_neg hs] at h; cases h

theorem loop_spec (refs : Refs) (base : Text) : ∀ (n i : Nat) (id : Text), resolveLoop refs base n i = some id →
    ∃ k, i ≤ k ∧ id = candidate base k ∧ refs.get id = none ∧ ∀ j, i ≤ j → j < k → (refs.get (candidate base j)).isSome = true
  | 0, _, _, h => by simp [resolveLoop] at h
  | n + 1, i, id, h => by
    unfold resolveLoop at h
    by_cases hs : (refs.get (candidate base i)).isSome = true
    · rw [if_pos hs] at h
      obtain ⟨k, hk, e, hn, hj⟩ := loop_spec refs base n (i + 1) id h
      refine ⟨k, by omega, e, hn, fun j h1 h2 => ?_⟩
      by_cases hji : j = i
      · rw [hji]; exact hs
      · exact hj j (by omega) h2
    · rw [if_neg hs] at h
      injection h with h
      refine ⟨i, Nat.le_refl _, h.symm, ?_, fun j h1 h2 => by omega⟩
      rw [← h]; simpa using hs

theorem loop_mono (refs : Refs) (base : Text) : ∀ (n m i : Nat) (id : Text), n ≤ m → resolveLoop refs base n i = some id →
    resolveLoop refs base m i = some id
  | 0, _, _, _, _, h => by simp [resolveLoop] at h
  | n + 1, 0, _, _, hnm, _ => by omega
  | n + 1, m + 1, i, id, hnm, h => by
    unfold resolveLoop at h ⊢
    split
    · rename_i hs; rw [if_pos hs] at h; exact loop_mono refs base n m (i + 1) id (by omega) h
    · rename_i hs; rw [if_neg hs] at h; exact h

/-- The search for a free identifier terminates, whatever has been recorded before: after at most one more
round than there are recorded identifiers; letting it run longer changes nothing. -/
theorem terminates (refs : Refs) (base : Text) :
    ∃ id, ∀ n, refs.length + 1 ≤ n → resolveLoop refs base n 1 = some id := by
  cases h : resolveLoop refs base (refs.length + 1) 1 with
  | some id => exact ⟨id, fun n hn => loop_mono refs base _ n 1 id hn h⟩
  | none =>
    exfalso
    have hl := loop_none refs base _ 1 h
    have hnd : ((List.range (refs.length + 1)).map (fun j => candidate base (1 + j))).Nodup := by
      refine List.Nodup.map ?_ List.nodup_range
      intro a b hab
      have := candidate_inj base hab; omega
    have hsub : ((List.range (refs.length + 1)).map (fun j => candidate base (1 + j))) ⊆ refs.map Prod.fst := by
      intro x hx
      simp only [List.mem_map, List.mem_range] at hx
      obtain ⟨j, hj, e⟩ := hx
      exact e ▸ get_some_mem refs _ (hl j hj)
    have := (List.Nodup.subperm hnd hsub).length_le
    simp at this
    exact absurd this (by omega)

/-- A section gets the first free one of `base`, `base_2`, `base_3`, … -/
theorem first_free (alnum : Char → Bool) (fmt : Val → Text) (attrs : AMap Val) (refs : Refs) (s : Sec) :
    ∃ k, 1 ≤ k ∧ resolveID alnum fmt attrs refs s = candidate (baseID alnum fmt attrs s) k ∧
      refs.get (resolveID alnum fmt attrs refs s) = none ∧
      ∀ j, 1 ≤ j → j < k → (refs.get (candidate (baseID alnum fmt attrs s) j)).isSome = true := by
  obtain ⟨id, h⟩ := terminates refs (baseID alnum fmt attrs s)
  have h := h _ (Nat.le_refl _)
  obtain ⟨k, hk, e, hn, hj⟩ := loop_spec _ _ _ _ _ h
  refine ⟨k, hk, ?_, ?_, hj⟩ <;> (unfold resolveID; rw [h]; simpa using by assumption)

/-! ### The document -/

/-- Invariant of the loop: `es` processed, `es'` the same elements with identifiers. -/
structure Inv (alnum : Char → Bool) (fmt : Val → Text) (a0 : CtxAttrs) (es es' : List Elem) (st : AState) : Prop where
  same : List.Forall₂ SameButId es es'
  agg : st.agg = es'.foldl Agg.append Agg.init
  recorded : ∀ s ∈ es'.filterMap asSection, s.id ≠ [] → s.titled = true → (st.refs.get s.id).isSome = true
  unique : (((es'.filterMap asSection).filter (fun s => !s.id.isEmpty && s.titled)).map Sec.id).Nodup
  owner : ∀ s ∈ es'.filterMap asSection, s.id ≠ [] → s.titled = true → (∀ e ∈ es, ¬ blockClaims s.id e) →
    st.refs.get s.id = some (.sect s.title)
  toc : ∃ xs : List (Int × Toc), st.toc = C16.tocOf xs ∧ xs.map Prod.snd = (es'.filterMap asSection).map tocEntry ∧
    ((∀ e ∈ es, ¬ declaresTocLevels e) → ∀ x ∈ xs, x.1 = a0.getAsIntWithDefault "toclevels" 2)
  depth : (∀ e ∈ es, ¬ declaresTocLevels e) → st.maxDepth = a0.getAsIntWithDefault "toclevels" 2

theorem headerElems_other (hs : List HElem) : ∀ st : AState, (hs.foldl AState.headerElem st).refs = st.refs ∧
    (hs.foldl AState.headerElem st).toc = st.toc ∧
    ((∀ v, HElem.decl "toclevels" v ∉ hs) → (hs.foldl AState.headerElem st).maxDepth = st.maxDepth) := by
  induction hs with
  | nil => intro st; exact ⟨rfl, rfl, fun _ => rfl⟩
  | cons h hs ih =>
    intro st
    obtain ⟨h1, h2, h3⟩ := ih (st.headerElem h)
    rw [List.foldl_cons]
    refine ⟨h1.trans ?_, h2.trans ?_, fun hv => (h3 (fun v hm => hv v (List.mem_cons_of_mem _ hm))).trans ?_⟩
    · cases h <;> rfl
    · cases h <;> rfl
    · cases h with
      | decl n v =>
        have : n ≠ "toclevels" := fun e => hv v (by rw [e]; exact List.mem_cons_self)
        simp [AState.headerElem, AState.declare, this]
      | reset n => rfl
      | other n => rfl

theorem foldl_block_get (rs : List (Text × Nat)) : ∀ (m : Refs) (id : Text),
    ((∀ p ∈ rs, p.1 ≠ id) → (addRefs m rs).get id = m.get id) ∧
    ((m.get id).isSome = true → ((addRefs m rs).get id).isSome = true) := by
  unfold addRefs
  induction rs with
  | nil => intro m id; exact ⟨fun _ => rfl, fun h => h⟩
  | cons p rs ih =>
    intro m id
    obtain ⟨h1, h2⟩ := ih ((p.1, RefTitle.block p.2) :: m) id
    rw [List.foldl_cons]
    refine ⟨fun h => (h1 (fun q hq => h q (List.mem_cons_of_mem _ hq))).trans ?_, fun h => h2 ?_⟩
    · have := h p List.mem_cons_self
      simp [Refs.get, this]
    · unfold Refs.get
      split
      · rfl
      · exact h

/-- An element that is not a section and claims no identifier. -/
theorem step_plain {alnum : Char → Bool} {fmt : Val → Text} {a0 : CtxAttrs} {es es' : List Elem} {st st' : AState} {e : Elem}
    (h : Inv alnum fmt a0 es es' st) (he : asSection e = none)
    (hagg : st'.agg = st.agg.append e) (htoc : st'.toc = st.toc)
    (hsome : ∀ id, (st.refs.get id).isSome = true → (st'.refs.get id).isSome = true)
    (hget : ∀ id, ¬ blockClaims id e → st'.refs.get id = st.refs.get id)
    (hdepth : ¬ declaresTocLevels e → st'.maxDepth = st.maxDepth) :
    Inv alnum fmt a0 (es ++ [e]) (es' ++ [e]) st' := by
  have hsec : (es' ++ [e]).filterMap asSection = es'.filterMap asSection := by
    rw [List.filterMap_append]; simp [he]
  have hsame : SameButId e e := by cases e <;> simp [SameButId]
  constructor
  · exact List.rel_append h.same (List.Forall₂.cons hsame .nil)
  · rw [hagg, h.agg, List.foldl_append]; rfl
  · rw [hsec]; exact fun s hs h1 h2 => hsome _ (h.recorded s hs h1 h2)
  · rw [hsec]; exact h.unique
  · rw [hsec]; intro s hs h1 h2 h3
    rw [hget _ (h3 e (by simp))]
    exact h.owner s hs h1 h2 (fun x hx => h3 x (by simp [hx]))
  · rw [hsec, htoc]
    obtain ⟨xs, h1, h2, h3⟩ := h.toc
    exact ⟨xs, h1, h2, fun hd => h3 (fun x hx => hd x (by simp [hx]))⟩
  · intro hd
    rw [hdepth (hd e (by simp)), h.depth (fun x hx => hd x (by simp [hx]))]

theorem step_inv {alnum : Char → Bool} {fmt : Val → Text} {a0 : CtxAttrs} {es es' : List Elem} {st : AState}
    (h : Inv alnum fmt a0 es es' st) (e : Elem) :
    ∃ e', Inv alnum fmt a0 (es ++ [e]) (es' ++ [e']) (aggStep alnum fmt st e) ∧
      ∀ s, e = .sect s → e' = .sect { s with id := resolveID alnum fmt st.attrs.all st.refs s } := by
  cases e with
  | decl n v =>
    refine ⟨_, step_plain h rfl rfl rfl (fun _ h => h) (fun _ _ => rfl) (fun hd => ?_), by simp⟩
    simp only [declaresTocLevels] at hd
    simp [aggStep, AState.declare, hd]
  | reset n => exact ⟨_, step_plain h rfl rfl rfl (fun _ h => h) (fun _ _ => rfl) (fun _ => rfl), by simp⟩
  | front a => exact ⟨_, step_plain h rfl rfl rfl (fun _ h => h) (fun _ _ => rfl) (fun _ => rfl), by simp⟩
  | blank => exact ⟨_, step_plain h rfl rfl rfl (fun _ h => h) (fun _ _ => rfl) (fun _ => rfl), by simp⟩
  | comment => exact ⟨_, step_plain h rfl rfl rfl (fun _ h => h) (fun _ _ => rfl) (fun _ => rfl), by simp⟩
  | header t hs =>
    obtain ⟨h1, h2, h3⟩ := headerElems_other hs st
    refine ⟨_, step_plain h rfl rfl h2 (fun id hsm => ?_) (fun id _ => ?_) (fun hd => h3 ?_), by simp⟩
    · show ((hs.foldl AState.headerElem st).refs.get id).isSome = true
      rw [h1]; assumption
    · show (hs.foldl AState.headerElem st).refs.get id = _
      rw [h1]
    · simpa [declaresTocLevels] using hd
  | block n rs =>
    refine ⟨_, step_plain h rfl rfl rfl (fun id hs => (foldl_block_get rs st.refs id).2 hs)
      (fun id hc => (foldl_block_get rs st.refs id).1 (fun p hp e => hc ⟨p, hp, e⟩)) (fun _ => rfl), by simp⟩
  | sect s =>
    obtain ⟨k, _, _, hfree, _⟩ := first_free alnum fmt st.attrs.all st.refs s
    refine ⟨.sect { s with id := resolveID alnum fmt st.attrs.all st.refs s }, ?_, fun s' e => by injection e with e; rw [e]⟩
    generalize hid : resolveID alnum fmt st.attrs.all st.refs s = id at hfree
    have hst : aggStep alnum fmt st (.sect s) = { st with
        toc := tocAdd st.maxDepth ⟨id, s.level⟩ st.toc
        agg := st.agg.append (.sect { s with id := id })
        refs := if id ≠ [] ∧ s.titled then (id, .sect s.title) :: st.refs else st.refs } := by
      simp only [aggStep, hid]
    rw [hst]
    have hsec : (es' ++ [Elem.sect { s with id := id }]).filterMap asSection = es'.filterMap asSection ++ [{ s with id := id }] := by
      rw [List.filterMap_append]; rfl
    have hne : ∀ s' ∈ es'.filterMap asSection, s'.id ≠ [] → s'.titled = true → s'.id ≠ id := by
      intro s' hs' h1 h2 e
      have := h.recorded s' hs' h1 h2
      rw [e, hfree] at this; cases this
    constructor
    · exact List.rel_append h.same (List.Forall₂.cons ⟨rfl, rfl, rfl⟩ .nil)
    · dsimp only
      rw [h.agg, List.foldl_append]; rfl
    · rw [hsec]
      intro s' hs' h1 h2
      rcases List.mem_append.1 hs' with hs' | hs'
      · have := h.recorded s' hs' h1 h2
        dsimp only
        split
        · unfold Refs.get; split
          · rfl
          · exact this
        · exact this
      · have e : s' = { s with id := id } := by simpa using hs'
        subst e
        dsimp only at h1 h2 ⊢
        rw [if_pos ⟨h1, h2⟩]; simp [Refs.get]
    · rw [hsec, List.filter_append, List.map_append, List.nodup_append]
      refine ⟨h.unique, ?_, ?_⟩
      · by_cases hc : (!id.isEmpty && s.titled) = true <;> simp [List.filter, hc]
      · intro a ha b hb
        obtain ⟨s1, hs1, e1⟩ := List.mem_map.1 ha
        obtain ⟨s2, hs2, e2⟩ := List.mem_map.1 hb
        rw [List.mem_filter] at hs1 hs2
        have e : s2 = { s with id := id } := by simpa using hs2.1
        have h1 : s1.id ≠ [] ∧ s1.titled = true := by simpa using hs1.2
        rw [← e1, ← e2, e]
        exact hne s1 hs1.1 h1.1 h1.2
    · rw [hsec]
      intro s' hs' h1 h2 h3
      rcases List.mem_append.1 hs' with hs' | hs'
      · have ho := h.owner s' hs' h1 h2 (fun x hx => h3 x (by simp [hx]))
        have hn := hne s' hs' h1 h2
        dsimp only
        split
        · unfold Refs.get; rw [if_neg (Ne.symm hn)]; exact ho
        · exact ho
      · have e : s' = { s with id := id } := by simpa using hs'
        subst e
        dsimp only at h1 h2 ⊢
        rw [if_pos ⟨h1, h2⟩]; simp [Refs.get]
    · obtain ⟨xs, h1, h2, h3⟩ := h.toc
      refine ⟨xs ++ [(st.maxDepth, ⟨id, s.level⟩)], ?_, ?_, ?_⟩
      · show tocAdd _ _ _ = _
        unfold C16.tocOf
        rw [List.foldl_append, h1]; rfl
      · rw [hsec, List.map_append, List.map_append, h2]; rfl
      · intro hd x hx
        have hd' : ∀ e ∈ es, ¬ declaresTocLevels e := fun y hy => hd y (by simp [hy])
        rcases List.mem_append.1 hx with hx | hx
        · exact h3 hd' x hx
        · have e : x = (st.maxDepth, ⟨id, s.level⟩) := by simpa using hx
          rw [e]; exact h.depth hd'
    · intro hd
      exact h.depth (fun y hy => hd y (by simp [hy]))

theorem run_inv {alnum : Char → Bool} {fmt : Val → Text} {a0 : CtxAttrs} : ∀ (rest es es' : List Elem) (st : AState), Inv alnum fmt a0 es es' st →
    ∃ more, Inv alnum fmt a0 (es ++ rest) (es' ++ more) (rest.foldl (aggStep alnum fmt) st)
  | [], es, es', st, h => ⟨[], by simpa using h⟩
  | e :: rest, es, es', st, h => by
    obtain ⟨e', h', _⟩ := step_inv h e
    obtain ⟨more, h''⟩ := run_inv rest (es ++ [e]) (es' ++ [e']) _ h'
    exact ⟨e' :: more, by simpa using h''⟩

theorem doc_inv (alnum : Char → Bool) (fmt : Val → Text) (a0 : CtxAttrs) (es : List Elem) :
    ∃ es', Inv alnum fmt a0 es es' (aggregateDoc alnum fmt a0 es) := by
  have h0 : Inv alnum fmt a0 [] [] (AState.init a0) := by
    constructor
    · exact .nil
    · rfl
    · simp
    · simp
    · simp
    · exact ⟨[], rfl, rfl, by simp⟩
    · intro _; rfl
  simpa [aggregateDoc] using run_inv es [] [] _ h0

theorem sections_eq {alnum : Char → Bool} {fmt : Val → Text} {a0 : CtxAttrs} {es es' : List Elem} {d : AState}
    (h : Inv alnum fmt a0 es es' d) : sections d = es'.filterMap asSection := by
  unfold sections
  rw [h.agg]
  exact congrArg _ (C12.content_preserved es')

/-- A section of the source is in the document, with the identifier resolved where it occurs. -/
theorem section_resolved (alnum : Char → Bool) (fmt : Val → Text) (attrs : CtxAttrs) (pre post : List Elem) (s : Sec) :
    { s with id := resolveID alnum fmt (aggregateDoc alnum fmt attrs pre).attrs.all (aggregateDoc alnum fmt attrs pre).refs s } ∈
      sections (aggregateDoc alnum fmt attrs (pre ++ .sect s :: post)) := by
  obtain ⟨es', h⟩ := doc_inv alnum fmt attrs pre
  obtain ⟨e', h', he⟩ := step_inv h (.sect s)
  obtain ⟨more, h''⟩ := run_inv post _ _ _ h'
  have e : aggregateDoc alnum fmt attrs (pre ++ .sect s :: post) =
      post.foldl (aggStep alnum fmt) (aggStep alnum fmt (aggregateDoc alnum fmt attrs pre) (.sect s)) := by
    simp [aggregateDoc]
  rw [e, sections_eq h'', he s rfl, List.filterMap_append, List.filterMap_append]
  simp [asSection]

/-! ### Theorems -/

/-- The document contains the given elements in order, changed in nothing but the identifiers of sections, and its
tree is the one of C12/C13. -/
theorem elements_kept (alnum : Char → Bool) (fmt : Val → Text) (attrs : CtxAttrs) (es : List Elem) :
    List.Forall₂ SameButId es (flatten (aggregateDoc alnum fmt attrs es).agg.tree) ∧
    (aggregateDoc alnum fmt attrs es).agg.tree = aggregateTree (flatten (aggregateDoc alnum fmt attrs es).agg.tree) := by
  obtain ⟨es', h⟩ := doc_inv alnum fmt attrs es
  have e : (aggregateDoc alnum fmt attrs es).agg.tree = aggregateTree es' := by rw [h.agg]; rfl
  rw [e, C12.content_preserved]
  exact ⟨h.same, rfl⟩

/-- No two sections share a (non-empty) identifier. -/
theorem unique_ids (alnum : Char → Bool) (fmt : Val → Text) (attrs : CtxAttrs) (es : List Elem) :
    (((sections (aggregateDoc alnum fmt attrs es)).filter (fun s => !s.id.isEmpty && s.titled)).map Sec.id).Nodup := by
  obtain ⟨es', h⟩ := doc_inv alnum fmt attrs es
  rw [sections_eq h]; exact h.unique

/-- Every section with a (non-empty) identifier is found under it, with its own title, unless a block of the
document claims the same identifier. -/
theorem found (alnum : Char → Bool) (fmt : Val → Text) (attrs : CtxAttrs) (es : List Elem) (s : Sec)
    (hs : s ∈ sections (aggregateDoc alnum fmt attrs es)) (hid : s.id ≠ []) (ht : s.titled = true) :
    ((aggregateDoc alnum fmt attrs es).refs.get s.id).isSome = true ∧
    ((∀ e ∈ es, ¬ blockClaims s.id e) → (aggregateDoc alnum fmt attrs es).refs.get s.id = some (.sect s.title)) := by
  obtain ⟨es', h⟩ := doc_inv alnum fmt attrs es
  rw [sections_eq h] at hs
  exact ⟨h.recorded s hs hid ht, h.owner s hs hid ht⟩

/-- The table of contents has, in document order, the sections up to the depth in force where they occur, with their final
identifiers; without `toclevels` declarations in the document the depth is the initial one throughout. -/
theorem toc_of_document (alnum : Char → Bool) (fmt : Val → Text) (attrs : CtxAttrs) (es : List Elem) :
    ∃ depths : List Int, depths.length = (sections (aggregateDoc alnum fmt attrs es)).length ∧
      flatten (aggregateDoc alnum fmt attrs es).toc =
        ((depths.zip ((sections (aggregateDoc alnum fmt attrs es)).map tocEntry)).filter (fun x => decide (x.2.level ≤ x.1))).map Prod.snd ∧
      ((∀ e ∈ es, ¬ declaresTocLevels e) → ∀ x ∈ depths, x = attrs.getAsIntWithDefault "toclevels" 2) := by
  obtain ⟨es', h⟩ := doc_inv alnum fmt attrs es
  rw [sections_eq h]
  obtain ⟨xs, h1, h2, h3⟩ := h.toc
  refine ⟨xs.map Prod.fst, by rw [List.length_map, ← List.length_map (f := tocEntry), ← h2, List.length_map], ?_, ?_⟩
  · rw [h1, C16.entries, ← h2]
    unfold C16.kept
    congr 2
    clear h1 h2 h3
    induction xs with
    | nil => rfl
    | cons x xs ih => simpa using ih
  · intro hd x hx
    obtain ⟨y, hy, e⟩ := List.mem_map.1 hx
    exact e ▸ h3 hd y hy

/-! ### Non-vacuity and findings -/

/-- ASCII letters and digits. -/
def asciiAlnum (c : Char) : Bool := c.isAlphanum

def sec (t : Text) : Elem := .sect ⟨1, [.str t], true, []⟩

/-- Three sections with the same title: `_Foo_bar`, `_Foo_bar_2`, `_Foo_bar_3`. -/
example : ((sections (aggregateDoc asciiAlnum (fun _ => []) (.new []) [sec "Foo bar".toList, sec "Foo bar".toList, .block 0 [], sec "Foo bar".toList])).map
    (fun s => String.ofList s.id)) = ["_Foo_bar", "_Foo_bar_2", "_Foo_bar_3"] := by decide

/-- An explicit identifier is taken as is, unless it is taken. -/
example : ((sections (aggregateDoc asciiAlnum (fun _ => []) (.new []) [.block 0 [("intro".toList, 0)], .sect ⟨1, [.str "A".toList], true, "intro".toList⟩])).map
    (fun s => String.ofList s.id)) = ["intro_2"] := by decide

/-- Finding (types.go:2567-2573): with `:idprefix:` (empty) a title without letters gets the empty identifier, which is never
recorded: two such sections share it, and an entry of the table of contents has no title to show
(pkg/renderer/sgml/table_of_contents.go:46-49: the conversion fails). -/
theorem finding_empty_ids_collide :
    ∃ (es : List Elem), let d := aggregateDoc asciiAlnum (fun _ => []) (.new []) es
      (sections d).map Sec.id = [[], []] ∧ (sections d).all Sec.titled = true ∧
      ∃ t ∈ flatten d.toc, d.refs.get t.id = none := by
  refine ⟨[.decl "idprefix" (.other 0), sec "***".toList, sec "???".toList], ?_⟩
  refine ⟨by decide, by decide, ⟨[], 1⟩, by decide, by rfl⟩

/-- Finding (types.go:1816-1822 and the other blocks): a block after a section may claim the generated identifier of the
section; the identifier then refers to the block. -/
theorem finding_block_takes_over :
    ∃ (es : List Elem), let d := aggregateDoc asciiAlnum (fun _ => []) (.new []) es
      (sections d).map Sec.id = ["_A".toList] ∧ ∃ n, d.refs.get "_A".toList = some (.block n) := by
  refine ⟨[sec "A".toList, .block 7 [("_A".toList, 7)]], by decide, 7, by rfl⟩

end Verif.C14
