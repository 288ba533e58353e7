import Verif.Props.IncludedPage

/-!
# C73 — Parts of files: the region of a tag, and lines by their numbers
-/
namespace Verif
namespace C73
open Included
open C03 (HasMacro InRange numbered)
open C04 (events lineEvents Selected Covered StopsStarted Missing)

/-! ### The region of a tag -/

/-- The lines that are around a region, like `// tag::name[]`. -/
def opening (comment name : Text) : Text := comment ++ "tag::".toList ++ name ++ "[]".toList
def closing (comment name : Text) : Text := comment ++ "end::".toList ++ name ++ "[]".toList

section
variable {alnum : Char → Bool}

/-- The name of a tag. -/
def Name (alnum : Char → Bool) (n : Text) : Prop := n ≠ [] ∧ ∀ c ∈ n, alnum c = true

theorem name_cut {n : Text} (hn : Name alnum n) (hb : alnum '[' = false) (r : Text) : (n ++ '[' :: r).takeWhile alnum = n ∧ (n ++ '[' :: r).dropWhile alnum = '[' :: r := by
  rw [List.takeWhile_append_of_pos hn.2, List.dropWhile_append_of_pos hn.2, List.takeWhile_cons_of_neg (by simp [hb]), List.dropWhile_cons_of_neg (by simp [hb])]
  simp

theorem opening_macro {n : Text} (hn : Name alnum n) (hb : alnum '[' = false) : pTagMacro alnum ("tag::".toList ++ n ++ "[]".toList) = some (.start n, []) := by
  have h := name_cut hn hb [']']
  rw [List.append_assoc]
  show (if (n ++ ['[', ']']).takeWhile alnum = [] then none else match (n ++ ['[', ']']).dropWhile alnum with
    | '[' :: ']' :: r' => some (TagMacro.start ((n ++ ['[', ']']).takeWhile alnum), r')
    | _ => none) = _
  rw [h.1, h.2, if_neg hn.1]
  rfl

theorem closing_macro {n : Text} (hn : Name alnum n) (hb : alnum '[' = false) : pTagMacro alnum ("end::".toList ++ n ++ "[]".toList) = some (.stop n, []) := by
  have h := name_cut hn hb [']']
  rw [List.append_assoc]
  show (if (n ++ ['[', ']']).takeWhile alnum = [] then none else match (n ++ ['[', ']']).dropWhile alnum with
    | '[' :: ']' :: r' => some (TagMacro.stop ((n ++ ['[', ']']).takeWhile alnum), r')
    | _ => none) = _
  rw [h.1, h.2, if_neg hn.1]
  rfl

/-- No macro begins with another character. -/
theorem no_macro_at {c : Char} (hc : c ≠ 't' ∧ c ≠ 'e') (t : Text) : pTagMacro alnum (c :: t) = none := by
  unfold pTagMacro
  split
  · rename_i e; exact absurd (List.cons.inj e).1 hc.1
  · rename_i e; exact absurd (List.cons.inj e).1 hc.2
  · rfl

theorem tags_after {comment t : Text} {m : TagMacro} (hc : ∀ c ∈ comment, c ≠ 't' ∧ c ≠ 'e') (h : pTagMacro alnum t = some (m, [])) :
    ∀ n, comment.length < n → lineTagsAux alnum n (comment ++ t) = [m] := by
  induction comment with
  | nil =>
    intro n hn
    obtain ⟨k, rfl⟩ : ∃ k, n = k + 1 := ⟨n - 1, by simp at hn; omega⟩
    rw [List.nil_append]
    unfold lineTagsAux
    rw [h]
    dsimp only
    cases k <;> rfl
  | cons c comment ih =>
    intro n hn
    obtain ⟨k, rfl⟩ : ∃ k, n = k + 1 := ⟨n - 1, by simp at hn; omega⟩
    show lineTagsAux alnum (k + 1) (c :: (comment ++ t)) = _
    unfold lineTagsAux
    rw [no_macro_at (hc c (by simp))]
    exact ih (fun x hx => hc x (by simp [hx])) k (by simp at hn; omega)

theorem opening_tags {comment n : Text} (hc : ∀ c ∈ comment, c ≠ 't' ∧ c ≠ 'e') (hn : Name alnum n) (hb : alnum '[' = false) : lineTags alnum (opening comment n) = [.start n] := by
  unfold lineTags opening
  have e : comment ++ "tag::".toList ++ n ++ "[]".toList = comment ++ ("tag::".toList ++ n ++ "[]".toList) := by simp only [List.append_assoc]
  rw [e]
  exact tags_after hc (opening_macro hn hb) _ (by simp)

theorem closing_tags {comment n : Text} (hc : ∀ c ∈ comment, c ≠ 't' ∧ c ≠ 'e') (hn : Name alnum n) (hb : alnum '[' = false) : lineTags alnum (closing comment n) = [.stop n] := by
  unfold lineTags closing
  have e : comment ++ "end::".toList ++ n ++ "[]".toList = comment ++ ("end::".toList ++ n ++ "[]".toList) := by simp only [List.append_assoc]
  rw [e]
  exact tags_after hc (closing_macro hn hb) _ (by simp)

theorem untagged_events (hb : alnum '[' = false) {l : Text} (h : ¬ HasMacro alnum l) : lineEvents alnum l = [] := by
  have : hasTag alnum l = false := by
    rw [← Bool.not_eq_true, C03.hasTag_iff alnum hb]
    exact h
  have : lineTags alnum l = [] := by simpa [hasTag] using this
  unfold C04.lineEvents
  rw [this]
  rfl

theorem untagged_all (hb : alnum '[' = false) {ls : List Text} (h : ∀ l ∈ ls, ¬ HasMacro alnum l) : events alnum ls = [] := by
  unfold C04.events
  rw [List.flatten_eq_nil_iff]
  intro x hx
  obtain ⟨l, hl, rfl⟩ := List.mem_map.mp hx
  exact untagged_events hb (h l hl)

theorem opening_tagged {comment n : Text} (hc : ∀ c ∈ comment, c ≠ 't' ∧ c ≠ 'e') (hn : Name alnum n) (hb : alnum '[' = false) : HasMacro alnum (opening comment n) := by
  rw [← C03.hasTag_iff alnum hb]
  unfold hasTag
  rw [opening_tags hc hn hb]
  rfl

theorem closing_tagged {comment n : Text} (hc : ∀ c ∈ comment, c ≠ 't' ∧ c ≠ 'e') (hn : Name alnum n) (hb : alnum '[' = false) : HasMacro alnum (closing comment n) := by
  rw [← C03.hasTag_iff alnum hb]
  unfold hasTag
  rw [closing_tags hc hn hb]
  rfl

open Classical in
/-- The wanted lines, after those with the tags in `before`. -/
noncomputable def wanted (alnum : Char → Bool) (sel : List TagRange) (before : List TagMacro) (ls : List Text) : List Text :=
  ((ls.zip ((ls.inits.drop 1).map (fun p => before ++ events alnum p))).filter (fun p => decide (¬ HasMacro alnum p.1 ∧ Selected sel p.2))).map Prod.fst

open Classical in
theorem wanted_cons (sel : List TagRange) (before : List TagMacro) (l : Text) (ls : List Text) :
    wanted alnum sel before (l :: ls) = (if ¬ HasMacro alnum l ∧ Selected sel (before ++ lineEvents alnum l) then [l] else []) ++ wanted alnum sel (before ++ lineEvents alnum l) ls := by
  have hzip : (l :: ls).zip (((l :: ls).inits.drop 1).map (fun p => before ++ events alnum p)) =
      (l, before ++ lineEvents alnum l) :: ls.zip ((ls.inits.drop 1).map (fun p => (before ++ lineEvents alnum l) ++ events alnum p)) := by
    have : (l :: ls).inits.drop 1 = [l] :: (ls.inits.drop 1).map (fun p => l :: p) := by
      cases ls <;> simp
    rw [this]
    simp [C04.events, Function.comp_def]
  unfold wanted
  rw [hzip, List.filter_cons]
  dsimp only
  by_cases h : ¬ HasMacro alnum l ∧ Selected sel (before ++ lineEvents alnum l)
  · rw [if_pos (decide_eq_true h), if_pos h]; rfl
  · rw [if_neg (by rw [decide_eq_true_iff]; exact h), if_neg h]; rfl

open Classical in
/-- Lines without tags. -/
theorem wanted_untagged (hb : alnum '[' = false) (sel : List TagRange) (before : List TagMacro) {a : List Text} (h : ∀ l ∈ a, ¬ HasMacro alnum l) (ls : List Text) :
    wanted alnum sel before (a ++ ls) = (if Selected sel before then a else []) ++ wanted alnum sel before ls := by
  induction a with
  | nil => simp
  | cons l a ih =>
    rw [List.cons_append, wanted_cons, untagged_events hb (h l (by simp)), List.append_nil, ih (fun x hx => h x (by simp [hx]))]
    have hl := h l (by simp)
    by_cases hs : Selected sel before
    · rw [if_pos ⟨hl, hs⟩, if_pos hs, if_pos hs]; rfl
    · rw [if_neg (fun x => hs x.2), if_neg hs, if_neg hs]; rfl

/-- A single name. -/
theorem selected_name {n : Text} (h1 : n ≠ ['*']) (h2 : n ≠ ['*', '*']) (evs : List TagMacro) : Selected [⟨n, true⟩] evs ↔ Covered evs n := by
  unfold C04.Selected C04.Applies
  constructor
  · rintro ⟨pre, t, post, e, ha, _, _⟩
    cases pre with
    | nil =>
      obtain ⟨rfl, _⟩ := List.cons.inj e
      rcases ha with h | ⟨h, _⟩ | ⟨_, _, h⟩
      · exact absurd h h2
      · exact absurd h h1
      · exact h
    | cons x pre => exact absurd (congrArg List.length e) (by simp)
  · intro h
    exact ⟨[], _, [], rfl, .inr (.inr ⟨h2, h1, h⟩), rfl, fun _ h => nomatch h⟩

theorem opened (n : Text) : Covered [.start n] n := ⟨[], [], rfl, fun h => nomatch h⟩

theorem closed (n : Text) : ¬ Covered [.start n, .stop n] n := by
  rintro ⟨pre, post, e, h⟩
  cases pre with
  | nil =>
    obtain ⟨_, rfl⟩ := List.cons.inj e
    exact h (by simp)
  | cons x pre =>
    cases pre with
    | nil => cases (List.cons.inj (List.cons.inj e).2).1
    | cons y pre => exact absurd (congrArg List.length e) (by simp)

theorem not_star (hc : C39.ClassOK alnum) {n : Text} (hn : Name alnum n) : n ≠ ['*'] ∧ n ≠ ['*', '*'] := by
  have : ∀ t, n ≠ '*' :: t := by
    rintro t rfl
    have := hn.2 '*' (by simp)
    rw [hc.2.2.2.1] at this
    cases this
  exact ⟨this _, this _⟩

variable {env : Env}

/-- The file with a region. -/
def withRegion (c c' n : Text) (a b d : List Text) : List Text := a ++ opening c n :: (b ++ closing c' n :: d)

theorem region_events (hb : alnum '[' = false) {c c' n : Text} {a b d : List Text} (hc : ∀ x ∈ c, x ≠ 't' ∧ x ≠ 'e') (hc' : ∀ x ∈ c', x ≠ 't' ∧ x ≠ 'e') (hn : Name alnum n)
    (h : ∀ l ∈ a ++ b ++ d, ¬ HasMacro alnum l) : events alnum (withRegion c c' n a b d) = [.start n, .stop n] := by
  have e : ∀ x y : List Text, events alnum (x ++ y) = events alnum x ++ events alnum y := fun x y => by simp [C04.events]
  have e1 : ∀ (x : Text) (y : List Text), events alnum (x :: y) = lineEvents alnum x ++ events alnum y := fun x y => rfl
  unfold withRegion
  rw [e, e1, e, e1, untagged_all hb (fun l hl => h l (by simp [hl])), untagged_all hb (ls := b) (fun l hl => h l (by simp [hl])), untagged_all hb (ls := d) (fun l hl => h l (by simp [hl]))]
  unfold C04.lineEvents
  rw [opening_tags hc hn hb, closing_tags hc' hn hb]
  rfl

/-- **C73**: what is wanted by `tags=name` of a file with `tag::name[]` and `end::name[]` in it are the lines between them. -/
theorem region_contained (hk : C39.ClassOK env.alnum) {file c c' n : Text} {a b d : List Text} (q : Bool) (hc : ∀ x ∈ c, x ≠ 't' ∧ x ≠ 'e') (hc' : ∀ x ∈ c', x ≠ 't' ∧ x ≠ 'e')
    (hn : Name env.alnum n) (hf : env.fs file = some (unlines (withRegion c c' n a b d))) (hl : ∀ l ∈ withRegion c c' n a b d, C50.NoEol l ∧ utf8Len l ≤ 65535)
    (h : ∀ l ∈ a ++ b ++ d, ¬ HasMacro env.alnum l) : Contains env file (.tags q n [⟨n, true⟩]) (withRegion c c' n a b d) b := by
  have hb : env.alnum '[' = false := hk.2.2.2.2
  obtain ⟨h1, h2⟩ := not_star hk hn
  have hev := region_events hb hc hc' hn h
  refine ⟨hf, hl, ⟨.one ⟨.inr (.inr hn), rfl⟩, fun t ht e => ?_, ?_, ?_⟩, ?_⟩
  · rw [List.mem_singleton.mp ht]
  · rw [hev]
    intro pre m post e
    cases pre with
    | nil => cases (List.cons.inj e).1
    | cons x pre =>
      obtain ⟨rfl, _⟩ := List.cons.inj e
      cases pre with
      | nil =>
        have := (List.cons.inj (List.cons.inj e).2).1
        cases this
        simp
      | cons y pre => exact absurd (congrArg List.length e) (by simp)
  · rintro ⟨t, ht, _, _, hm⟩
    rw [List.mem_singleton.mp ht, hev] at hm
    exact hm (by simp)
  · have e : picked env.alnum (.tags q n [⟨n, true⟩]) (withRegion c c' n a b d) = wanted env.alnum [⟨n, true⟩] [] (withRegion c c' n a b d) := by
      unfold picked wanted
      simp only [List.nil_append]
    rw [e]
    unfold withRegion
    have e1 : lineEvents env.alnum (opening c n) = [.start n] := by unfold C04.lineEvents; rw [opening_tags hc hn hb]; rfl
    have e2 : lineEvents env.alnum (closing c' n) = [.stop n] := by unfold C04.lineEvents; rw [closing_tags hc' hn hb]; rfl
    have e3 := wanted_untagged hb [⟨n, true⟩] [.start n, .stop n] (a := d) (fun l hl => h l (by simp [hl])) []
    rw [List.append_nil] at e3
    rw [wanted_untagged hb _ _ (fun l hl => h l (by simp [hl])), if_neg (by rw [selected_name h1 h2]; rintro ⟨pre, post, e, _⟩; simp at e), wanted_cons, e1,
      if_neg (fun x => x.1 (opening_tagged hc hn hb)), List.nil_append, List.nil_append, List.nil_append,
      wanted_untagged hb _ _ (fun l hl => h l (by simp [hl])), if_pos ((selected_name h1 h2 _).mpr (opened n)), wanted_cons, e2, if_neg (fun x => x.1 (closing_tagged hc' hn hb)), List.nil_append,
      List.singleton_append, e3, if_neg (by rw [selected_name h1 h2]; exact closed n)]
    show b ++ ([] ++ wanted env.alnum _ _ []) = b
    simp [wanted]

/-! ### Lines by their numbers -/

open Classical in
theorem numbered_between (i j : Nat) : ∀ (ls : List Text) (k : Nat),
    ((ls.zipIdx k).filter (fun p => decide (InRange ⟨(i : Int), (j : Int)⟩ (p.2 : Int)))).map Prod.fst = (ls.take (j + 1 - k)).drop (i - k)
  | [], k => by simp
  | l :: ls, k => by
    have ih := numbered_between i j ls (k + 1)
    rw [List.zipIdx_cons, List.filter_cons]
    dsimp only
    by_cases h : InRange ⟨(i : Int), (j : Int)⟩ (k : Int)
    · rw [if_pos (decide_eq_true h), List.map_cons, ih]
      obtain ⟨h1, h2⟩ := h
      dsimp only at h1 h2
      have h2 : k ≤ j := by rcases h2 with h2 | h2 <;> omega
      have : j + 1 - k = (j + 1 - (k + 1)) + 1 := by omega
      rw [this, List.take_succ_cons, show i - k = 0 by omega, show i - (k + 1) = 0 by omega]
      rfl
    · rw [if_neg (by rw [decide_eq_true_iff]; exact h), ih]
      by_cases hj : j < k
      · rw [show j + 1 - k = 0 by omega, show j + 1 - (k + 1) = 0 by omega]; simp
      · have hi : k < i := by
          by_contra hx
          exact h ⟨by dsimp only; omega, .inl (by dsimp only; omega)⟩
        rw [show j + 1 - k = (j + 1 - (k + 1)) + 1 by omega, List.take_succ_cons, show i - k = (i - (k + 1)) + 1 by omega, List.drop_succ_cons]

open Classical in
theorem numbered_from (i : Nat) : ∀ (ls : List Text) (k : Nat),
    ((ls.zipIdx k).filter (fun p => decide (InRange ⟨(i : Int), -1⟩ (p.2 : Int)))).map Prod.fst = ls.drop (i - k)
  | [], k => by simp
  | l :: ls, k => by
    have ih := numbered_from i ls (k + 1)
    rw [List.zipIdx_cons, List.filter_cons]
    dsimp only
    by_cases h : InRange ⟨(i : Int), -1⟩ (k : Int)
    · rw [if_pos (decide_eq_true h), List.map_cons, ih]
      obtain ⟨h1, _⟩ := h
      dsimp only at h1
      rw [show i - k = 0 by omega, show i - (k + 1) = 0 by omega]
      rfl
    · rw [if_neg (by rw [decide_eq_true_iff]; exact h), ih]
      have hi : k < i := by
        by_contra hx
        exact h ⟨by dsimp only; omega, .inr rfl⟩
      rw [show i - k = (i - (k + 1)) + 1 by omega, List.drop_succ_cons]

open Classical in
theorem picked_range {all : List Text} (h : ∀ l ∈ all, ¬ HasMacro alnum l) (q : Bool) (spec : Text) (r : LineRange) :
    picked alnum (.lines q spec [r]) all = ((numbered all).filter (fun p => decide (InRange r (p.2 : Int)))).map Prod.fst := by
  unfold picked
  dsimp only
  congr 1
  apply List.filter_congr
  intro p hp
  have hm : ¬ HasMacro alnum p.1 := h p.1 (List.fst_mem_of_mem_zipIdx (x := p) hp)
  rw [Bool.eq_iff_iff, decide_eq_true_iff, decide_eq_true_iff]
  constructor
  · rintro ⟨_, x, hx, hr⟩
    rw [List.mem_singleton.mp hx] at hr
    exact hr
  · exact fun hr => ⟨hm, r, by simp, hr⟩

/-- The end of a range; `-1` is that of the file. -/
def last : Option Nat → Int
  | some j => (j : Int)
  | none => -1

/-- The text of a range of lines. -/
def range (i : Nat) (j : Option Nat) : Text := C39.showInt i ++ ['.', '.'] ++ C39.showInt (last j)

/-- The lines from the `i`th, to the `j`th or the end. -/
def between (i : Nat) (j : Option Nat) (all : List Text) : List Text := match j with
  | some j => (all.take j).drop (i - 1)
  | none => all.drop (i - 1)

/-- **C73**: what is wanted by `lines=i..j` of a file without tags are the lines from the `i`th to the `j`th, and by `lines=i..-1` those from the `i`th. -/
theorem range_contained {file : Text} {all : List Text} (q : Bool) {i : Nat} (hi : 1 ≤ i ∧ i ≤ 9223372036854775807) {j : Option Nat} (hj : ∀ n, j = some n → n ≤ 9223372036854775807)
    (hf : env.fs file = some (unlines all)) (hl : ∀ l ∈ all, C50.NoEol l ∧ utf8Len l ≤ 65535) (h : ∀ l ∈ all, ¬ HasMacro env.alnum l) :
    Contains env file (.lines q (range i j) [⟨i, last j⟩]) all (between i j all) := by
  refine ⟨hf, hl, .one (.inr ⟨_, _, C39.showInt_ok _ ⟨by show (_ : Int) ≤ (i : Int); omega, by show (i : Int) ≤ _; omega⟩, C39.showInt_ok _ ?_, rfl⟩), ?_⟩
  · cases j with
    | none => show (_ : Int) ≤ -1 ∧ (-1 : Int) ≤ _; omega
    | some j => have := hj j rfl; show (_ : Int) ≤ (j : Int) ∧ (j : Int) ≤ _; omega
  · rw [picked_range h]
    cases j with
    | none => exact numbered_from i all 1
    | some j =>
      have := numbered_between i j all 1
      rw [show j + 1 - 1 = j by omega] at this
      exact this

end

/-! ### A document of parts of files -/

section
open Rend hiding Item bind_ok Author expandRevision
open C72

/-- Whether a value can be written. -/
def writable (q : Bool) (spec : Text) : Bool :=
  decide (spec ≠ []) && spec.all (fun c => !['=', ']', '[', '{', ' ', '\t', '\r', '\n', '\'', '"', '\\', '`'].contains c) && (q || !spec.contains ',')

theorem writable_ok {q : Bool} {spec : Text} (h : writable q spec = true) : Writable q spec := by
  unfold writable at h
  simp only [Bool.and_eq_true] at h
  obtain ⟨⟨h1, h2⟩, h3⟩ := h
  refine ⟨of_decide_eq_true h1, fun c hc hm => ?_, fun hq hm => ?_⟩
  · have := List.all_eq_true.mp h2 c hc
    rw [List.contains_iff_mem.mpr hm] at this
    cases this
  · rw [hq, List.contains_iff_mem.mpr hm] at h3
    cases h3

theorem inclusion_picked {p g : Text} {k : Pick} {o : Option Nat} (hk : (match k with | .all => true | .lines q s _ => writable q s | .tags q s _ => writable q s) = true)
    (h : (decide (p ≠ []) && p.all (fun c => !notInPath.contains c) && o.all (fun n => decide (n ≤ 9)) && g.all Grammar.isBlank && decide (utf8Len (inclusion p k o g) ≤ 65535)) = true) :
    InclusionOk p k o g := by
  simp only [Bool.and_eq_true] at h
  obtain ⟨⟨⟨⟨h1, h2⟩, h3⟩, h4⟩, h5⟩ := h
  refine ⟨⟨of_decide_eq_true h1, fun c hc hm => ?_⟩, fun q t rs e => ?_, fun q t rs e => ?_, fun n hn => ?_, fun x hx => ?_, of_decide_eq_true h5⟩
  · have := List.all_eq_true.mp h2 c hc
    rw [show notInPath.contains c = true from List.contains_iff_mem.mpr hm] at this
    cases this
  · subst e; exact writable_ok hk
  · subst e; exact writable_ok hk
  · subst hn
    simpa using h3
  · have h := List.all_eq_true.mp h4 x hx
    rw [← C62.isBlank_iff, Bool.or_eq_true, beq_iff_eq, beq_iff_eq] at h
    exact h

/-- No tags. -/
theorem untagged {ls : List Text} (h : ls.all (fun l => !hasTag C50.rawAlnum l) = true) : ∀ l ∈ ls, ¬ HasMacro C50.rawAlnum l := by
  intro l hl
  have := List.all_eq_true.mp h l hl
  rw [← C03.hasTag_iff C50.rawAlnum (by decide)]
  simpa using this

/-- The document of C72, with the included files among other lines of the files: by their numbers, and in the region of a tag. -/
def codeAll : List Text := ["a *b*".toList, "ifdef::not-this[]".toList]
def moreParts : List Part :=
  [.heading 0 "Setup".toList, .when true "manual".toList [] [.fence '-' 4 [] [.file "code.txt".toList (.lines false (range 1 (some 1)) [⟨1, 1⟩]) none [] codeAll codeParts] []] [] [],
   .line "H~2~O".toList, .line []]
def moreAll : List Text := withRegion "// ".toList "# ".toList "more".toList ["include::nothing.adoc[]".toList] (written moreParts) ["endif::not-this[]".toList]
def setupParts : List Part :=
  [.heading 0 "Setup".toList, .line "* Unpack & run".toList, .line "* Done".toList, .line [],
   .file "more.adoc".toList (.tags true "more".toList [⟨"more".toList, true⟩]) (some 1) " ".toList moreAll moreParts]
def setupAll : List Text := ":not: this".toList :: written setupParts
def docParts : List Part :=
  [.line "It's *very _easy_*:".toList, .line [], .file "parts/setup.adoc".toList (.lines false (range 2 none) [⟨2, -1⟩]) (some 1) [] setupAll setupParts, .heading 1 "First run".toList,
   .line "See <<_Setup_2>>, *<<First run>>*, <<_Setup,over there>> and <<none>>".toList]

/-- What is written in the files. -/
theorem files_written : unlines (written docParts) = ("It's *very _easy_*:\n\ninclude::parts/setup.adoc[lines=2..-1,leveloffset=+1]\n== First run\n" ++
      "See <<_Setup_2>>, *<<First run>>*, <<_Setup,over there>> and <<none>>\n").toList ∧
    unlines setupAll = ":not: this\n= Setup\n* Unpack & run\n* Done\n\ninclude::more.adoc[tags=\"more\",leveloffset=+1] \n".toList ∧
    unlines moreAll = ("include::nothing.adoc[]\n// tag::more[]\n= Setup\nifdef::manual[]\n----\ninclude::code.txt[lines=1..1]\n----\nendif::[]\nH~2~O\n\n# end::more[]\n" ++
      "endif::not-this[]\n").toList ∧
    unlines codeAll = "a *b*\nifdef::not-this[]\n".toList := by decide +kernel

def someFiles (p : Text) : Option Text :=
  if p = "parts/setup.adoc".toList then some (unlines setupAll)
  else if p = "more.adoc".toList then some (unlines moreAll)
  else if p = "code.txt".toList then some (unlines codeAll)
  else none

theorem code_contained : Contains (filesEnv someFiles) "code.txt".toList (.lines false (range 1 (some 1)) [⟨1, 1⟩]) codeAll (written codeParts) :=
  range_contained (env := filesEnv someFiles) false (i := 1) (by decide) (j := some 1) (fun n e => by cases e; decide) (by decide +kernel) (contains_lines (by decide +kernel))
    (untagged (by decide +kernel))

theorem more_contained : Contains (filesEnv someFiles) "more.adoc".toList (.tags true "more".toList [⟨"more".toList, true⟩]) moreAll (written moreParts) :=
  region_contained (env := filesEnv someFiles) class_ok true (by decide +kernel) (by decide +kernel) ⟨by decide, by
    show ∀ c ∈ "more".toList, C50.rawAlnum c = true
    decide +kernel⟩ (by decide +kernel) (contains_lines (by decide +kernel)) (untagged (by decide +kernel))

theorem setup_contained : Contains (filesEnv someFiles) "parts/setup.adoc".toList (.lines false (range 2 none) [⟨2, -1⟩]) setupAll (written setupParts) :=
  range_contained (env := filesEnv someFiles) false (i := 2) (by decide) (j := none) (fun n e => nomatch e) (by decide +kernel) (contains_lines (by decide +kernel)) (untagged (by decide +kernel))

theorem docParts_ok : Ok (filesEnv someFiles) (C50.alnum sem) [] false docParts := by
  have code : Ok (filesEnv someFiles) (C50.alnum sem) "code.txt".toList true codeParts := ⟨line_ok (by decide +kernel), trivial⟩
  have more : Ok (filesEnv someFiles) (C50.alnum sem) "more.adoc".toList false moreParts := by
    refine ⟨⟨rfl, by decide, ⟨'S', "etup".toList, by decide +kernel, by decide, by decide⟩, by unfold C50.NoEol; decide +kernel, by decide +kernel⟩,
      ⟨by decide, C71.directive_ok (by decide +kernel), ⟨⟨rfl, ⟨4, "listing", by decide, by decide⟩, fun _ h => (nomatch h), fun _ h => (nomatch h), by decide +kernel, by decide +kernel,
        ⟨inclusion_picked (by decide +kernel) (by decide +kernel), by decide +kernel, code_contained, code⟩, trivial⟩, trivial⟩, C71.directive_ok (by decide +kernel)⟩,
      line_ok (by decide +kernel), line_ok (by decide +kernel), trivial⟩
  have setup : Ok (filesEnv someFiles) (C50.alnum sem) "parts/setup.adoc".toList false setupParts := by
    exact ⟨⟨rfl, by decide, ⟨'S', "etup".toList, by decide +kernel, by decide, by decide⟩, by unfold C50.NoEol; decide +kernel, by decide +kernel⟩,
      line_ok (by decide +kernel), line_ok (by decide +kernel), line_ok (by decide +kernel),
      ⟨inclusion_picked (by decide +kernel) (by decide +kernel), by decide +kernel, more_contained, more⟩, trivial⟩
  exact ⟨line_ok (by decide +kernel), line_ok (by decide +kernel), ⟨inclusion_picked (by decide +kernel) (by decide +kernel), by decide +kernel, setup_contained, setup⟩,
    ⟨rfl, by decide, ⟨'F', "irst run".toList, by decide +kernel, by decide, by decide⟩, by unfold C50.NoEol; decide +kernel, by decide +kernel⟩, line_ok (by decide +kernel), trivial⟩

/-- **C73**: from what is written in the files to what is shown, which is the page of C69. -/
theorem sample_to_page (c : Walk.Ctx) (fmt : Val → Text) : Nonempty (C69.Stages (filesEnv someFiles) 3 (rootCtx [] [("manual", .str [])]) C63.sem C62.acts 0 C62.reader C65.world c fmt ⟨[], []⟩
    (C51.lib Html.html) C60.plainCfg (unlines (written docParts)) C69.sampleHtml) := by
  have h := text_to_page (files_reads someFiles) sem_includes class_ok 3 [] (api := [("manual", .str [])]) (by unfold AMap.WF; decide) C63.sem_code C63.sem_place C63.sem_list C63.sem_lenCode
    C62.acts_obey (s := 0) rfl (D := C62.reader) C62.reader_reads
    C69.world_grammatical C65.world_spoken c fmt (pa := ⟨[], []⟩) rfl rfl (L := C51.lib Html.html) (R := Html.html) rfl
    (C60.plainCfg_article _) rfl docParts_ok (by decide +kernel) (xs := C69.sample) (by decide +kernel) C69.sample_good (C68.untouched (by decide +kernel)) C69.sample_ready
  rw [show Woven.page (C51.lib Html.html).lower (C59.alnum C63.sem) (getBoolD C60.plainCfg.attrs "unicode" true) C69.reading C69.sample = C69.sampleHtml by decide +kernel] at h
  exact h

end
end C73
end Verif
