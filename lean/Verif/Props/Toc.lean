import Verif.Proofs.Forest
import Mathlib.Data.List.Induction
/-! C16: the table of contents lists exactly the sections up to the chosen depth. -/
namespace Verif.C16
open Forest

/-- document_processing_aggregate.go:76-80: the table of contents after adding the given sections, each with
the `MaxDepth` in force at that moment (lines 47-51, 61-66). -/
def tocOf (xs : List (Int × Toc)) : Forest Toc := xs.foldl (fun f x => tocAdd x.1 x.2 f) .nil

/-! ### Specification -/

/-- The sections that are not too deep. -/
def kept (xs : List (Int × Toc)) : List Toc := (xs.filter (fun x => decide (x.2.level ≤ x.1))).map Prod.snd

/-- No gaps: no section is higher than the first one and none is more than one level deeper than the one
before it. -/
def Gapless : List Toc → Prop
  | [] => True
  | t :: ts => (∀ u ∈ ts, t.level ≤ u.level) ∧ List.IsChain (fun a b => b.level ≤ a.level + 1) (t :: ts)

/-- The nearest preceding section with a smaller level. -/
def expectedParent (pre : List Toc) (t : Toc) : Option Toc := pre.reverse.find? (fun u => decide (u.level < t.level))

/-- The entries up to the chosen depth, each with its expected parent; `pre` are the sections before. -/
def expected (maxDepth : Int) : List Toc → List Toc → List (Toc × Option Toc)
  | _, [] => []
  | pre, t :: ts =>
    if t.level ≤ maxDepth then (t, expectedParent pre t) :: expected maxDepth (pre ++ [t]) ts
    else expected maxDepth (pre ++ [t]) ts

/-! ### Proofs -/

theorem below_insertAt (t : Toc) : ∀ (f : Forest Toc), f ≠ .nil → ∃ d, d ≤ (spine f).length ∧ tocAddBelow t f = insertAt d t f
  | .nil, h => absurd rfl h
  | .cons p .nil .nil, _ => ⟨1, by simp [spine], rfl⟩
  | .cons p (.cons c k r) .nil, _ => by
    by_cases hc : c.level = t.level
    · exact ⟨1, by simp [spine], by simp [tocAddBelow, hc, insertAt]⟩
    · obtain ⟨d, hd, e⟩ := below_insertAt t (.cons c k r) (by simp)
      exact ⟨d + 1, by simpa [spine] using hd, by simp [tocAddBelow, hc, insertAt, e]⟩
  | .cons p ks (.cons p' k' r'), _ => by
    obtain ⟨d, hd, e⟩ := below_insertAt t (.cons p' k' r') (by simp)
    cases d with
    | zero => exact ⟨0, Nat.zero_le _, by simp only [insertAt] at e; simp [tocAddBelow, insertAt, e, snoc]⟩
    | succ d => exact ⟨d + 1, by simpa [spine] using hd, by simp [tocAddBelow, insertAt, e]⟩

theorem flatten_insertAt (f : Forest Toc) (d : Nat) (t : Toc) (h : d ≤ (spine f).length) : flatten (insertAt d t f) = flatten f ++ [t] := by
  rw [← preorder_fst _ none, preorder_insertAt _ _ _ _ h, List.map_append, preorder_fst]; rfl

theorem flatten_tocAdd (m : Int) (t : Toc) (f : Forest Toc) :
    flatten (tocAdd m t f) = flatten f ++ if t.level ≤ m then [t] else [] := by
  unfold tocAdd
  by_cases h : t.level > m
  · have : ¬ t.level ≤ m := by omega
    simp [h, this]
  · have h' : t.level ≤ m := by omega
    simp only [h, if_false, h', if_true]
    cases f with
    | nil => rfl
    | cons p k r =>
      simp only
      split
      · have := flatten_insertAt (.cons p k r) 0 t (Nat.zero_le _)
        simpa [insertAt] using this
      · obtain ⟨d, hd, e⟩ := below_insertAt t (.cons p k r) (by simp)
        rw [e, flatten_insertAt _ _ _ hd]

/-- The entries of the table of contents, in order, are exactly the sections that are not deeper than the
depth in force where they occur, each once; whatever the levels. -/
theorem entries (xs : List (Int × Toc)) : flatten (tocOf xs) = kept xs := by
  have gen : ∀ (xs : List (Int × Toc)) (f : Forest Toc), flatten (xs.foldl (fun f x => tocAdd x.1 x.2 f) f) = flatten f ++ kept xs := by
    intro xs
    induction xs with
    | nil => intro f; simp [kept]
    | cons x xs ih =>
      intro f
      rw [List.foldl_cons, ih, flatten_tocAdd]
      by_cases h : x.2.level ≤ x.1 <;> simp [kept, h]
  have := gen xs .nil
  simpa [tocOf, flatten] using this

/-- All siblings have level `k`, their children `k+1`, and so on. -/
def Uniform : Int → Forest Toc → Prop
  | _, .nil => True
  | k, .cons a ks r => a.level = k ∧ Uniform (k + 1) ks ∧ Uniform k r

theorem uniform_snoc (t : Toc) : ∀ (f : Forest Toc) (k : Int), Uniform k f → t.level = k → Uniform k (snoc t f)
  | .nil, k, _, ht => ⟨ht, trivial, trivial⟩
  | .cons a ks r, k, h, ht => ⟨h.1, h.2.1, uniform_snoc t r k h.2.2 ht⟩

theorem uniform_insertAt (t : Toc) : ∀ (f : Forest Toc) (k : Int) (d : Nat), Uniform k f → d ≤ (spine f).length → t.level = k + d →
    Uniform k (insertAt d t f)
  | f, k, 0, h, _, ht => by
    have := uniform_snoc t f k h (by simpa using ht)
    cases f <;> simpa only [insertAt] using this
  | .nil, k, d + 1, _, h, _ => absurd h (by simp [spine])
  | .cons a ks .nil, k, d + 1, h, hd, ht =>
    ⟨h.1, uniform_insertAt t ks (k + 1) d h.2.1 (by simpa [spine] using hd) (by rw [ht]; omega), trivial⟩
  | .cons a ks (.cons b k' r), k, d + 1, h, hd, ht =>
    ⟨h.1, h.2.1, uniform_insertAt t (.cons b k' r) k (d + 1) h.2.2 (by simpa [spine] using hd) ht⟩

theorem below_exact (t : Toc) : ∀ (f : Forest Toc) (k : Int) (d : Nat), Uniform k f → d + 1 ≤ (spine f).length → t.level = k + d + 1 →
    tocAddBelow t f = insertAt (d + 1) t f
  | .nil, _, _, _, h, _ => absurd h (by simp [spine])
  | .cons p .nil .nil, k, d, _, hd, _ => by
    have : d = 0 := by simp [spine] at hd; omega
    subst this; rfl
  | .cons p (.cons c kk r) .nil, k, d, hu, hd, ht => by
    cases d with
    | zero =>
      have : c.level = t.level := by rw [hu.2.1.1, ht]; simp
      simp [tocAddBelow, this, insertAt]
    | succ d =>
      have : ¬ c.level = t.level := by rw [hu.2.1.1, ht]; omega
      have ih := below_exact t (.cons c kk r) (k + 1) d hu.2.1 (by simpa [spine] using hd) (by rw [ht]; omega)
      simp only [tocAddBelow, this, if_false, ih, insertAt]
  | .cons p ks (.cons p' k' r'), k, d, hu, hd, ht => by
    have ih := below_exact t (.cons p' k' r') k d hu.2.2 (by simpa [spine] using hd) ht
    simp only [tocAddBelow, ih, insertAt]

theorem uniform_spine : ∀ (f : Forest Toc) (k : Int), Uniform k f → ∀ (i : Nat) (u : Toc), (spine f)[i]? = some u → u.level = k + i
  | .nil, _, _, i, u, h => by simp [spine] at h
  | .cons a ks .nil, k, hu, i, u, h => by
    cases i with
    | zero => simp [spine] at h; subst h; rw [hu.1]; simp
    | succ i =>
      have := uniform_spine ks (k + 1) hu.2.1 i u (by simpa [spine] using h)
      omega
  | .cons a ks (.cons b k' r), k, hu, i, u, h => uniform_spine (.cons b k' r) k hu.2.2 i u (by simpa [spine] using h)

/-- The nested-ness invariant: `pre` are the sections seen so far (kept or not). -/
structure Inv (m l0 : Int) (pre : List Toc) (f : Forest Toc) : Prop where
  uni : Uniform l0 f
  near : ∀ l : Int, l ≤ m → (spine f).reverse.find? (fun u => decide (u.level < l)) = pre.reverse.find? (fun u => decide (u.level < l))
  depth : pre ≠ [] → (spine f).length ≥ 1 ∧ ∀ u ∈ pre.getLast?, min u.level m < l0 + (spine f).length

theorem spine_sorted (f : Forest Toc) (k : Int) (h : Uniform k f) : (spine f).Pairwise (fun a b => a.level < b.level) := by
  rw [List.pairwise_iff_getElem]
  intro i j hi hj hij
  have h1 := uniform_spine f k h i _ (List.getElem?_eq_getElem hi)
  have h2 := uniform_spine f k h j _ (List.getElem?_eq_getElem hj)
  omega

theorem take_near {f : Forest Toc} {k : Int} (hu : Uniform k f) (d : Nat) (hd : d ≤ (spine f).length) (l : Int) (hl : l ≤ k + d) :
    ((spine f).take d).reverse.find? (fun u => decide (u.level < l)) = (spine f).reverse.find? (fun u => decide (u.level < l)) := by
  conv_rhs => rw [← List.take_append_drop d (spine f)]
  rw [List.reverse_append, List.find?_append]
  have : ((spine f).drop d).reverse.find? (fun u => decide (u.level < l)) = none := by
    rw [List.find?_eq_none]
    intro u hu'
    rw [List.mem_reverse, List.mem_iff_getElem] at hu'
    obtain ⟨i, hi, e⟩ := hu'
    rw [List.getElem_drop] at e
    have := uniform_spine f k hu (d + i) u (by rw [← e]; exact List.getElem?_eq_getElem _)
    simp; omega
  rw [this]; rfl

theorem parent_eq {f : Forest Toc} {k : Int} (hu : Uniform k f) (d : Nat) (hd : d ≤ (spine f).length) :
    parentAt none f d = (spine f).reverse.find? (fun u => decide (u.level < k + d)) := by
  rw [← take_near hu d hd (k + d) (Int.le_refl _)]
  cases d with
  | zero => simp [parentAt]
  | succ d =>
    have hlt : d < (spine f).length := hd
    have he : (spine f)[d]? = some (spine f)[d] := List.getElem?_eq_getElem hlt
    have hlev := uniform_spine f k hu d _ he
    have : (spine f).take (d + 1) = (spine f).take d ++ [(spine f)[d]] := by
      rw [List.take_succ, he]; rfl
    rw [this, List.reverse_append]
    simp only [List.reverse_cons, List.reverse_nil, List.nil_append, List.singleton_append, List.find?_cons, parentAt, he]
    have : (spine f)[d].level < k + ((d + 1 : Nat) : Int) := by omega
    rw [decide_eq_true this]

theorem step {m l0 : Int} {pre : List Toc} {f : Forest Toc} (h : Inv m l0 pre f) (t : Toc) (hm : l0 ≤ m)
    (hge : l0 ≤ t.level) (hgap : ∀ u ∈ pre.getLast?, t.level ≤ u.level + 1) (hfirst : pre = [] → t.level = l0) :
    Inv m l0 (pre ++ [t]) (tocAdd m t f) ∧
    preorder none (tocAdd m t f) = preorder none f ++ (if t.level ≤ m then [(t, expectedParent pre t)] else []) := by
  by_cases hd : t.level > m
  · have he : tocAdd m t f = f := by simp [tocAdd, hd]
    have hn : ¬ t.level ≤ m := by omega
    rw [he]
    simp only [hn, if_false, List.append_nil, and_true]
    refine ⟨h.uni, ?_, ?_⟩
    · intro l hl
      rw [h.near l hl, List.reverse_append]
      have : ¬ t.level < l := by omega
      simp [List.find?_cons, this]
    · intro _
      have hne : pre ≠ [] := by intro e; have := hfirst e; omega
      obtain ⟨a, b⟩ := h.depth hne
      refine ⟨a, ?_⟩
      intro u hu
      simp at hu; subst hu
      cases hl : pre.getLast? with
      | none => rw [List.getLast?_eq_none_iff] at hl; exact absurd hl hne
      | some v =>
        have h1 := hgap v (by rw [hl]; rfl)
        have h2 := b v (by rw [hl]; rfl)
        omega
  · have hk : t.level ≤ m := by omega
    -- the depth at which the entry is added
    obtain ⟨d, hde⟩ : ∃ d : Nat, t.level = l0 + d := ⟨(t.level - l0).toNat, by omega⟩
    have hlen : d ≤ (spine f).length := by
      by_cases hp : pre = []
      · have := hfirst hp; omega
      · obtain ⟨a, b⟩ := h.depth hp
        cases hl : pre.getLast? with
        | none => rw [List.getLast?_eq_none_iff] at hl; exact absurd hl hp
        | some v =>
          have h1 := hgap v (by rw [hl]; rfl)
          have h2 := b v (by rw [hl]; rfl)
          omega
    have he : tocAdd m t f = insertAt d t f := by
      have hu := h.uni
      unfold tocAdd
      simp only [hd, if_false]
      cases f with
      | nil =>
        have : d = 0 := by simpa [spine] using hlen
        subst this; rfl
      | cons p k r =>
        simp only
        cases d with
        | zero =>
          have : t.level = p.level := by rw [hu.1, hde]; simp
          simp [this, insertAt]
        | succ d =>
          have : ¬ t.level = p.level := by rw [hu.1, hde]; omega
          simp only [this, if_false]
          exact below_exact t _ l0 d hu hlen (by rw [hde]; omega)
    rw [he]
    have hsp := spine_insertAt f d t hlen
    refine ⟨⟨uniform_insertAt t f l0 d h.uni hlen hde, ?_, ?_⟩, ?_⟩
    · intro l hl
      rw [hsp, List.reverse_append, List.reverse_append]
      simp only [List.reverse_cons, List.reverse_nil, List.nil_append, List.singleton_append, List.find?_cons]
      by_cases hlt : t.level < l
      · simp [hlt]
      · simp only [hlt, decide_false]
        rw [← h.near l hl]
        exact take_near h.uni d hlen l (by omega)
    · intro _
      rw [hsp]
      simp only [List.length_append, List.length_take, List.length_singleton]
      refine ⟨by omega, ?_⟩
      intro u hu
      simp at hu; subst hu
      have : min d (spine f).length = d := by omega
      rw [this]; omega
    · rw [preorder_insertAt f d t none hlen, parent_eq h.uni d hlen, ← hde, h.near _ hk, if_pos hk]
      rfl

theorem run {m l0 : Int} (hm : l0 ≤ m) : ∀ (ts pre : List Toc) (f : Forest Toc), Inv m l0 pre f →
    (∀ t ∈ ts, l0 ≤ t.level) → List.IsChain (fun a b => b.level ≤ a.level + 1) (pre.getLast?.toList ++ ts) →
    (pre = [] → ∀ t ∈ ts.head?, t.level = l0) →
    preorder none (ts.foldl (fun f t => tocAdd m t f) f) = preorder none f ++ expected m pre ts
  | [], pre, f, _, _, _, _ => by simp [expected]
  | t :: ts, pre, f, h, hge, hc, hf => by
    have hgap : ∀ u ∈ pre.getLast?, t.level ≤ u.level + 1 := by
      intro u hu
      rw [Option.mem_def] at hu
      rw [hu] at hc
      simp only [Option.toList_some, List.singleton_append, List.isChain_cons_cons] at hc
      exact hc.1
    obtain ⟨h', e⟩ := step h t hm (hge t List.mem_cons_self) hgap (fun hp => hf hp t rfl)
    have hc' : List.IsChain (fun a b : Toc => b.level ≤ a.level + 1) ((pre ++ [t]).getLast?.toList ++ ts) := by
      simp only [List.getLast?_append, List.getLast?_singleton, Option.some_or, Option.toList_some, List.singleton_append]
      cases hl : pre.getLast? with
      | none => rw [hl] at hc; simpa using hc
      | some u => rw [hl] at hc; simp only [Option.toList_some, List.singleton_append, List.isChain_cons_cons] at hc; exact hc.2
    have ih := run hm ts (pre ++ [t]) (tocAdd m t f) h' (fun u hu => hge u (List.mem_cons_of_mem _ hu)) hc' (fun hp => by simp at hp)
    rw [List.foldl_cons, ih, e, List.append_assoc, expected]
    by_cases hk : t.level ≤ m <;> simp [hk]

/-- For sections without level gaps and a constant depth (that admits the first section), the nesting of the
entries is the nesting of the sections. -/
theorem nesting (maxDepth : Int) (ts : List Toc) (hg : Gapless ts) (hm : ∀ t ∈ ts.head?, t.level ≤ maxDepth) :
    preorder none (tocOf (ts.map (fun t => (maxDepth, t)))) = expected maxDepth [] ts := by
  have e : tocOf (ts.map (fun t => (maxDepth, t))) = ts.foldl (fun f t => tocAdd maxDepth t f) .nil := by
    simp [tocOf, List.foldl_map]
  rw [e]
  cases ts with
  | nil => rfl
  | cons t ts =>
    have := run (m := maxDepth) (l0 := t.level) (hm t rfl) (t :: ts) [] .nil
      ⟨trivial, fun _ _ => rfl, fun h => absurd rfl h⟩
      (by intro u hu
          rcases List.mem_cons.1 hu with rfl | hu
          · exact Int.le_refl _
          · exact hg.1 u hu)
      hg.2 (by intro _ u hu; simp at hu; rw [hu])
    simpa [preorder] using this

def exT (l : Int) (n : Nat) : Toc := ⟨(toString n).toList, l⟩

example : Gapless [exT 1 1, exT 2 2, exT 3 3, exT 2 4, exT 1 5] ∧
    expected 2 [] [exT 1 1, exT 2 2, exT 3 3, exT 2 4, exT 1 5] =
      [(exT 1 1, none), (exT 2 2, some (exT 1 1)), (exT 2 4, some (exT 1 1)), (exT 1 5, none)] := by
  refine ⟨⟨?_, ?_⟩, rfl⟩
  · intro u hu; simp [exT] at hu ⊢; rcases hu with rfl | rfl | rfl | rfl <;> simp
  · simp [exT]

/-- FINDING: with a level gap (1, 3, 2) the section of level 2 is listed below the one of level 3. -/
theorem finding_gap_nests_shallower_below_deeper :
    preorder none (tocOf [(5, exT 1 1), (5, exT 3 2), (5, exT 2 3)]) =
      [(exT 1 1, none), (exT 3 2, some (exT 1 1)), (exT 2 3, some (exT 3 2))] := rfl

/-- FINDING: a section with a smaller level than the first one is listed below it. -/
theorem finding_first_section_deeper :
    preorder none (tocOf [(5, exT 2 1), (5, exT 1 2)]) = [(exT 2 1, none), (exT 1 2, some (exT 2 1))] := rfl

end Verif.C16
