import Verif.Props.HeaderParse
import Verif.Props.SectionTree

/-!
# C66, continued — The attributes that a header sets
-/
namespace Verif
namespace C66
open Headed
open Rend hiding Item bind_ok Author expandRevision

/-! ### Keys -/

/-- What is set for every author. -/
def parts : List String := ["author", "firstname", "middlename", "lastname", "email"]

theorem key_list (k : String) (i : Nat) : (Rend.authorKey k i).toList = k.toList ++ (if i = 0 then [] else '_' :: itoa (i + 1)) := by
  unfold Rend.authorKey
  split
  · simp
  · rw [String.toList_append, String.toList_append, List.append_assoc, show (toString (i + 1)).toList = itoa (i + 1) from Nat.toList_repr]
    rfl

theorem take_part : ∀ {k : Text}, '_' ∉ k → ∀ (i : Nat), (k ++ (if i = 0 then [] else '_' :: itoa (i + 1))).takeWhile (· != '_') = k ∧
    (k ++ (if i = 0 then [] else '_' :: itoa (i + 1))).dropWhile (· != '_') = (if i = 0 then [] else '_' :: itoa (i + 1))
  | [], _, i => by split <;> exact ⟨rfl, rfl⟩
  | c :: k, h, i => by
    have hc : (c != '_') = true := by
      simp only [bne_iff_ne, ne_eq]
      rintro rfl
      exact h List.mem_cons_self
    have ih := take_part (k := k) (fun hm => h (List.mem_cons_of_mem _ hm)) i
    rw [List.cons_append, List.takeWhile_cons_of_pos (p := (· != '_')) hc, List.dropWhile_cons_of_pos (p := (· != '_')) hc, ih.1, ih.2]
    exact ⟨rfl, rfl⟩

theorem key_inj {k k' : String} {i j : Nat} (h1 : '_' ∉ k.toList) (h2 : '_' ∉ k'.toList) (h : Rend.authorKey k i = Rend.authorKey k' j) : k = k' ∧ i = j := by
  have := congrArg String.toList h
  rw [key_list, key_list] at this
  obtain ⟨a1, b1⟩ := take_part h1 i
  obtain ⟨a2, b2⟩ := take_part h2 j
  rw [this, a2] at a1
  rw [this, b2] at b1
  refine ⟨String.toList_inj.mp a1.symm, ?_⟩
  by_cases hi : i = 0
  · by_cases hj : j = 0
    · omega
    · rw [if_pos hi, if_neg hj] at b1; cases b1
  · by_cases hj : j = 0
    · rw [if_neg hi, if_pos hj] at b1; cases b1
    · rw [if_neg hi, if_neg hj] at b1
      have := C14.itoa_inj _ _ (List.cons.inj b1).2
      omega

theorem part_free : ∀ k ∈ parts, '_' ∉ k.toList := by decide +kernel

theorem key_ne {k k' : String} (hk : k ∈ parts) (hk' : k' ∈ parts) {i j : Nat} (h : k ≠ k' ∨ i ≠ j) : Rend.authorKey k i ≠ Rend.authorKey k' j := by
  intro e
  obtain ⟨rfl, rfl⟩ := key_inj (part_free k hk) (part_free k' hk') e
  rcases h with h | h <;> exact h rfl

/-- The other attributes that the renderer looks at, or that headers set. -/
def others : List String :=
  ["unicode", "options", "hardbreaks", "doctype", "toc", "noheader", "nofooter", "description", "version-label", "authors", "revision", "revnumber", "revdate", "revremark"]

theorem other_ne {k q : String} (hk : k ∈ parts) (hq : q ∈ others) (i : Nat) : Rend.authorKey k i ≠ q := by
  intro e
  have hq' : '_' ∉ q.toList ∧ q ∉ parts := by
    have : ∀ q ∈ others, '_' ∉ q.toList ∧ q ∉ parts := by decide +kernel
    exact this q hq
  have := key_inj (j := 0) (part_free k hk) hq'.1 (show Rend.authorKey k i = Rend.authorKey q 0 from e)
  exact hq'.2 (this.1 ▸ hk)

/-! ### Looking up -/

theorem setAll_other {β : Type} {k : String} : ∀ (e m : AMap β), (∀ p ∈ e, p.1 ≠ k) → AMap.get (AMap.setAll m e) k = AMap.get m k
  | [], _, _ => rfl
  | p :: e, m, h => by
    show AMap.get (AMap.setAll (AMap.set m p.1 p.2) e) k = _
    rw [setAll_other e _ (fun q hq => h q (List.mem_cons_of_mem _ hq)), AMap.get_set, if_neg (fun e => h p List.mem_cons_self e.symm)]

theorem setAll_append {β : Type} (m a b : AMap β) : AMap.setAll m (a ++ b) = AMap.setAll (AMap.setAll m a) b := List.foldl_append

/-- An author, for the renderer. -/
def toAuthor (a : Author) : Rend.Author := ⟨some ⟨shown a.first, shown a.middle, shown a.last⟩, a.email⟩

theorem fullName_eq (a : Author) : fullName (toAuthor a) = .ok a.name := by
  have h : ∀ t : Text, (if t = [] then [] else " ".toList ++ t) = more t := fun t => rfl
  show Except.ok _ = Except.ok _
  rw [h, h]
  rfl

/-- The attributes of the `i`-th author. -/
def ownOf (i : Nat) (a : Author) : Rend.Attrs :=
  [(Rend.authorKey "author" i, .str a.name), (Rend.authorKey "firstname" i, .str (shown a.first))] ++
    (if shown a.middle = [] then [] else [(Rend.authorKey "middlename" i, .str (shown a.middle))]) ++
    (if shown a.last = [] then [] else [(Rend.authorKey "lastname" i, .str (shown a.last))]) ++
    (if a.email = [] then [] else [(Rend.authorKey "email" i, .str a.email)])

/-- The attributes of the authors. -/
def expansion : Nat → List Author → Rend.Attrs
  | _, [] => []
  | i, a :: as => ownOf i a ++ expansion (i + 1) as

theorem expand_eq : ∀ (as : List Author) (i : Nat), Rend.expandAuthors i (as.map toAuthor) = .ok (expansion i as)
  | [], _ => rfl
  | a :: as, i => by
    have ih := expand_eq as (i + 1)
    show (Rend.fullName (toAuthor a) >>= fun full => Rend.expandAuthors (i + 1) (as.map toAuthor) >>= fun r => _) = _
    rw [fullName_eq, ih]
    rfl

theorem own_keys {i : Nat} {a : Author} {p : String × AV} (h : p ∈ ownOf i a) : ∃ k ∈ parts, p.1 = Rend.authorKey k i := by
  unfold ownOf at h
  simp only [List.mem_append] at h
  rcases h with ((h | h) | h) | h
  · simp only [List.mem_cons, List.not_mem_nil, or_false] at h
    rcases h with rfl | rfl
    · exact ⟨"author", by decide, rfl⟩
    · exact ⟨"firstname", by decide, rfl⟩
  · split at h
    · cases h
    · rw [List.mem_singleton.mp h]; exact ⟨"middlename", by decide, rfl⟩
  · split at h
    · cases h
    · rw [List.mem_singleton.mp h]; exact ⟨"lastname", by decide, rfl⟩
  · split at h
    · cases h
    · rw [List.mem_singleton.mp h]; exact ⟨"email", by decide, rfl⟩

theorem expansion_keys : ∀ {as : List Author} {i : Nat} {p : String × AV}, p ∈ expansion i as → ∃ k ∈ parts, ∃ j, i ≤ j ∧ p.1 = Rend.authorKey k j
  | [], _, _, h => nomatch h
  | a :: as, i, p, h => by
    rcases List.mem_append.mp (show p ∈ ownOf i a ++ expansion (i + 1) as from h) with h | h
    · obtain ⟨k, hk, e⟩ := own_keys h
      exact ⟨k, hk, i, Nat.le_refl _, e⟩
    · obtain ⟨k, hk, j, hj, e⟩ := expansion_keys h
      exact ⟨k, hk, j, by omega, e⟩

theorem own_name (m : Rend.Attrs) (i : Nat) (a : Author) : AMap.get (AMap.setAll m (ownOf i a)) (Rend.authorKey "author" i) = some (.str a.name) := by
  unfold ownOf
  rw [List.cons_append, List.cons_append, List.cons_append]
  show AMap.get (AMap.setAll (AMap.set m _ _) _) _ = _
  rw [setAll_other, AMap.get_set_self]
  intro p hp
  have hp : p ∈ [(Rend.authorKey "firstname" i, AV.str (shown a.first))] ++ (if shown a.middle = [] then [] else [(Rend.authorKey "middlename" i, .str (shown a.middle))]) ++
    (if shown a.last = [] then [] else [(Rend.authorKey "lastname" i, .str (shown a.last))]) ++ (if a.email = [] then [] else [(Rend.authorKey "email" i, .str a.email)]) := hp
  simp only [List.mem_append] at hp
  rcases hp with ((h | h) | h) | h
  · rw [List.mem_singleton.mp h]; exact key_ne (by decide) (by decide) (.inl (by decide))
  all_goals
    split at h
    · cases h
    · rw [List.mem_singleton.mp h]; exact key_ne (by decide) (by decide) (.inl (by decide))

theorem own_mail (m : Rend.Attrs) (i : Nat) (a : Author) : AMap.get (AMap.setAll m (ownOf i a)) (Rend.authorKey "email" i) =
    if a.email = [] then AMap.get m (Rend.authorKey "email" i) else some (.str a.email) := by
  unfold ownOf
  rw [setAll_append]
  have hother : ∀ p ∈ [(Rend.authorKey "author" i, AV.str a.name), (Rend.authorKey "firstname" i, .str (shown a.first))] ++
    (if shown a.middle = [] then [] else [(Rend.authorKey "middlename" i, .str (shown a.middle))]) ++
    (if shown a.last = [] then [] else [(Rend.authorKey "lastname" i, .str (shown a.last))]), p.1 ≠ Rend.authorKey "email" i := by
    intro p hp
    simp only [List.mem_append] at hp
    rcases hp with (h | h) | h
    · simp only [List.mem_cons, List.not_mem_nil, or_false] at h
      rcases h with rfl | rfl <;> exact key_ne (by decide) (by decide) (.inl (by decide))
    all_goals
      split at h
      · cases h
      · rw [List.mem_singleton.mp h]; exact key_ne (by decide) (by decide) (.inl (by decide))
  by_cases he : a.email = []
  · rw [if_pos he, if_pos he]
    exact setAll_other _ _ hother
  · rw [if_neg he, if_neg he]
    exact AMap.get_set_self _ _ _

theorem names : ∀ (as : List Author) (i j : Nat) (m : Rend.Attrs), AMap.get (AMap.setAll m (expansion i as)) (Rend.authorKey "author" (i + j)) =
    match as[j]? with
    | some a => some (.str a.name)
    | none => AMap.get m (Rend.authorKey "author" (i + j))
  | [], i, j, m => rfl
  | a :: as, i, 0, m => by
    rw [expansion, setAll_append, setAll_other]
    · exact own_name m i a
    · intro p hp
      obtain ⟨k, hk, j, hj, e⟩ := expansion_keys hp
      rw [e]
      exact key_ne hk (by decide) (.inr (by omega))
  | a :: as, i, j + 1, m => by
    have ih := names as (i + 1) j (AMap.setAll m (ownOf i a))
    rw [show i + 1 + j = i + (j + 1) by omega] at ih
    rw [expansion, setAll_append, ih, List.getElem?_cons_succ]
    have : AMap.get (AMap.setAll m (ownOf i a)) (Rend.authorKey "author" (i + (j + 1))) = AMap.get m (Rend.authorKey "author" (i + (j + 1))) := by
      refine setAll_other _ _ fun p hp => ?_
      obtain ⟨k, hk, e⟩ := own_keys hp
      rw [e]
      exact key_ne hk (by decide) (.inr (by omega))
    rw [this]

theorem mails : ∀ (as : List Author) (i j : Nat) (m : Rend.Attrs), AMap.get (AMap.setAll m (expansion i as)) (Rend.authorKey "email" (i + j)) =
    match as[j]? with
    | some a => if a.email = [] then AMap.get m (Rend.authorKey "email" (i + j)) else some (.str a.email)
    | none => AMap.get m (Rend.authorKey "email" (i + j))
  | [], i, j, m => rfl
  | a :: as, i, 0, m => by
    rw [expansion, setAll_append, setAll_other]
    · exact own_mail m i a
    · intro p hp
      obtain ⟨k, hk, j, hj, e⟩ := expansion_keys hp
      rw [e]
      exact key_ne hk (by decide) (.inr (by omega))
  | a :: as, i, j + 1, m => by
    have ih := mails as (i + 1) j (AMap.setAll m (ownOf i a))
    rw [show i + 1 + j = i + (j + 1) by omega] at ih
    rw [expansion, setAll_append, ih, List.getElem?_cons_succ]
    have : AMap.get (AMap.setAll m (ownOf i a)) (Rend.authorKey "email" (i + (j + 1))) = AMap.get m (Rend.authorKey "email" (i + (j + 1))) := by
      refine setAll_other _ _ fun p hp => ?_
      obtain ⟨k, hk, e⟩ := own_keys hp
      rw [e]
      exact key_ne hk (by decide) (.inr (by omega))
    rw [this]

theorem names_other {q : String} (hq : q ∈ others) (as : List Author) (i : Nat) (m : Rend.Attrs) : AMap.get (AMap.setAll m (expansion i as)) q = AMap.get m q := by
  refine setAll_other _ _ fun p hp => ?_
  obtain ⟨k, hk, j, hj, e⟩ := expansion_keys hp
  rw [e]
  exact other_ne hk hq j

/-! ### The attributes of the document -/

/-- A declaration of the header, for the renderer. -/
def declEls (h : Head) : List El :=
  (if h.authors = [] then [] else [.attrDecl "authors" (.authors (h.authors.map toAuthor))]) ++
    h.revision.toList.map (fun v => .attrDecl "revision" (.revision v.number v.date v.remark))

/-- The attributes of the revision. -/
def revised (m : Rend.Attrs) : Option Revision → Rend.Attrs
  | none => m
  | some v => AMap.setAll m (Rend.expandRevision (v.number, v.date, v.remark))

/-- The attributes after the header. -/
def headAttrs (cfg : Config) (h : Head) : Rend.Attrs :=
  headerDecls (declEls h) (revised (if h.authors = [] then defaultAttrs cfg
    else AMap.setAll (AMap.set (defaultAttrs cfg) "authors" (.authors (h.authors.map toAuthor))) (expansion 0 h.authors)) h.revision)

theorem authors_of (h : Head) : Rend.authorsOf (declEls h) none = .ok (if h.authors = [] then none else some (h.authors.map toAuthor)) := by
  unfold declEls
  split
  · cases h.revision <;> rfl
  · rfl

theorem revision_of (h : Head) : Rend.revisionOf (declEls h) = h.revision.map (fun v => (v.number, v.date, v.remark)) := by
  unfold declEls
  split <;> cases h.revision <;> rfl

theorem addHeader_eq (cfg : Config) (h : Head) (t : Option (List El)) : addHeader (defaultAttrs cfg) (some ([], t, declEls h)) =
    .ok (revised (if h.authors = [] then defaultAttrs cfg
      else AMap.setAll (AMap.set (defaultAttrs cfg) "authors" (.authors (h.authors.map toAuthor))) (expansion 0 h.authors)) h.revision) := by
  unfold addHeader
  dsimp only
  rw [authors_of, revision_of]
  by_cases ha : h.authors = []
  · rw [if_pos ha, if_pos ha]
    dsimp only [addAuthors]
    cases h.revision <;> rfl
  · rw [if_neg ha, if_neg ha]
    dsimp only [addAuthors]
    rw [expand_eq]
    cases h.revision <;> rfl

/-- Header declarations only set `authors` and `revision`. -/
theorem get_decls {q : String} (h1 : q ≠ "authors") (h2 : q ≠ "revision") (h : Head) (m : Rend.Attrs) : AMap.get (headerDecls (declEls h) m) q = AMap.get m q := by
  unfold declEls
  by_cases ha : h.authors = []
  · rw [if_pos ha]
    cases h.revision with
    | none => rfl
    | some v =>
      show AMap.get (AMap.set m _ _) q = _
      rw [AMap.get_set, if_neg h2]
  · rw [if_neg ha]
    cases h.revision with
    | none =>
      show AMap.get (AMap.set m _ _) q = _
      rw [AMap.get_set, if_neg h1]
    | some v =>
      show AMap.get (AMap.set (AMap.set m _ _) _ _) q = _
      rw [AMap.get_set, if_neg h2, AMap.get_set, if_neg h1]

/-- What a revision sets. -/
def revKeys : List String := ["revision", "revnumber", "revdate", "revremark"]

theorem rev_other {q : String} (h : q ∉ revKeys) (m : Rend.Attrs) (v : Option Revision) : AMap.get (revised m v) q = AMap.get m q := by
  cases v with
  | none => rfl
  | some v =>
    refine setAll_other _ _ fun p hp e => h ?_
    rw [← e]
    unfold Rend.expandRevision at hp
    simp only [List.mem_append] at hp
    rcases hp with ((hp | hp) | hp) | hp
    · rw [List.mem_singleton.mp hp]; simp [revKeys]
    all_goals
      split at hp
      · cases hp
      · rw [List.mem_singleton.mp hp]; simp [revKeys]

/-- A text that may be missing, as an attribute. -/
def present (t : Text) : Option AV := if t = [] then none else some (.str t)

theorem rev_number {m : Rend.Attrs} (h1 : AMap.get m "revnumber" = none) (v : Option Revision) :
    AMap.get (revised m v) "revnumber" = v.bind (fun v => present v.number) := by
  cases v with
  | none => exact h1
  | some v =>
    show AMap.get (AMap.setAll m (Rend.expandRevision (v.number, v.date, v.remark))) _ = present v.number
    unfold Rend.expandRevision present
    by_cases a : v.number = [] <;> by_cases b : v.date = [] <;> by_cases c : v.remark = [] <;> simp [a, b, c, AMap.setAll, AMap.get_set, h1]

theorem rev_date {m : Rend.Attrs} (h1 : AMap.get m "revdate" = none) (v : Option Revision) :
    AMap.get (revised m v) "revdate" = v.bind (fun v => present v.date) := by
  cases v with
  | none => exact h1
  | some v =>
    show AMap.get (AMap.setAll m (Rend.expandRevision (v.number, v.date, v.remark))) _ = present v.date
    unfold Rend.expandRevision present
    by_cases a : v.number = [] <;> by_cases b : v.date = [] <;> by_cases c : v.remark = [] <;> simp [a, b, c, AMap.setAll, AMap.get_set, h1]

theorem rev_remark {m : Rend.Attrs} (h1 : AMap.get m "revremark" = none) (v : Option Revision) :
    AMap.get (revised m v) "revremark" = v.bind (fun v => present v.remark) := by
  cases v with
  | none => exact h1
  | some v =>
    show AMap.get (AMap.setAll m (Rend.expandRevision (v.number, v.date, v.remark))) _ = present v.remark
    unfold Rend.expandRevision present
    by_cases a : v.number = [] <;> by_cases b : v.date = [] <;> by_cases c : v.remark = [] <;> simp [a, b, c, AMap.setAll, AMap.get_set, h1]

/-- What is needed of the configuration: it sets none of the attributes that stand for authors and the revision, nor `toc`; manpages are something else, and so are
documents where every line ends with a break. -/
structure Plain (L : Lib) (cfg : Config) : Prop where
  doctype : getStrD L.sprint cfg.attrs "doctype" "article".toList ≠ "manpage".toList
  hardbreaks : hasOption cfg.attrs "hardbreaks" = false
  toc : AMap.get cfg.attrs "toc" = none
  authors : AMap.get cfg.attrs "authors" = none
  author : ∀ i, AMap.get cfg.attrs (Rend.authorKey "author" i) = none
  email : ∀ i, AMap.get cfg.attrs (Rend.authorKey "email" i) = none
  number : AMap.get cfg.attrs "revnumber" = none
  date : AMap.get cfg.attrs "revdate" = none
  remark : AMap.get cfg.attrs "revremark" = none

section
variable {L : Lib} {cfg : Config} (h : Head)

theorem get_part (hA : Plain L cfg) {k : String} (hk : k ∈ ["author", "email"]) (i : Nat) : AMap.get (headAttrs cfg h) (Rend.authorKey k i) =
    match h.authors[i]? with
    | some a => if k = "author" then some (.str a.name) else present a.email
    | none => none := by
  have hp : k ∈ parts := by simp only [List.mem_cons, List.not_mem_nil, or_false] at hk; rcases hk with rfl | rfl <;> decide
  have hn : ∀ q ∈ others, Rend.authorKey k i ≠ q := fun q hq => other_ne hp hq i
  have hd : AMap.get (defaultAttrs cfg) (Rend.authorKey k i) = none := by
    rw [C60.get_default]
    · simp only [List.mem_cons, List.not_mem_nil, or_false] at hk
      rcases hk with rfl | rfl
      · exact hA.author i
      · exact hA.email i
    · intro hm
      have : Rend.authorKey k i ∉ ["figure-caption", "example-caption", "table-caption", "version-label"] := by
        intro hm
        have hq : ∀ q ∈ ["figure-caption", "example-caption", "table-caption", "version-label"], '_' ∉ q.toList ∧ q ∉ parts := by decide +kernel
        obtain ⟨h1, h2⟩ := hq _ hm
        have h3 := key_inj (j := 0) (part_free k hp) h1 rfl
        exact h2 (h3.1 ▸ hp)
      exact this hm
  unfold headAttrs
  rw [get_decls (hn _ (by decide)) (hn _ (by decide)), rev_other]
  · by_cases ha : h.authors = []
    · rw [if_pos ha, ha, hd]
      rfl
    · rw [if_neg ha]
      have hset : AMap.get (AMap.set (defaultAttrs cfg) "authors" (.authors (h.authors.map toAuthor))) (Rend.authorKey k i) = none := by
        rw [AMap.get_set, if_neg (hn _ (by decide)), hd]
      simp only [List.mem_cons, List.not_mem_nil, or_false] at hk
      rcases hk with rfl | rfl
      · have := names h.authors 0 i (AMap.set (defaultAttrs cfg) "authors" (.authors (h.authors.map toAuthor)))
        rw [Nat.zero_add, hset] at this
        exact this
      · have := mails h.authors 0 i (AMap.set (defaultAttrs cfg) "authors" (.authors (h.authors.map toAuthor)))
        rw [Nat.zero_add, hset] at this
        rw [this]
        cases h.authors[i]? with
        | none => rfl
        | some a => rfl
  · intro hm
    have : ∀ q ∈ revKeys, q ∈ others := by decide
    exact hn _ (this _ hm) rfl

theorem get_other {q : String} (hq : q ∈ others) (h1 : q ∉ revKeys) (h2 : q ≠ "authors") : AMap.get (headAttrs cfg h) q = AMap.get (defaultAttrs cfg) q := by
  unfold headAttrs
  rw [get_decls h2 (fun e => h1 (by rw [e]; decide)), rev_other h1]
  split
  · rfl
  · rw [names_other hq, AMap.get_set, if_neg h2]

theorem get_authors (hA : Plain L cfg) : (AMap.get (headAttrs cfg h) "authors").isSome = !h.authors.isEmpty := by
  unfold headAttrs declEls
  by_cases ha : h.authors = []
  · rw [if_pos ha, if_pos ha, ha]
    have hd : AMap.get (defaultAttrs cfg) "authors" = none := by
      rw [C60.get_default cfg (by decide)]; exact hA.authors
    cases hr : h.revision with
    | none => show (AMap.get (defaultAttrs cfg) _).isSome = _; rw [hd]; rfl
    | some v =>
      show (AMap.get (AMap.set (revised (defaultAttrs cfg) (some v)) _ _) _).isSome = _
      rw [AMap.get_set, if_neg (by decide), rev_other (by decide), hd]
      rfl
  · rw [if_neg ha]
    have : h.authors.isEmpty = false := by cases he : h.authors with | nil => exact absurd he ha | cons _ _ => rfl
    rw [this]
    cases hr : h.revision with
    | none =>
      show (AMap.get (AMap.set _ _ _) _).isSome = _
      rw [AMap.get_set_self]
      rfl
    | some v =>
      show (AMap.get (AMap.set (AMap.set _ _ _) _ _) _).isSome = _
      rw [AMap.get_set, if_neg (by decide), AMap.get_set_self]
      rfl

/-- The attributes before the revision is added. -/
theorem get_before {q : String} (hA : AMap.get cfg.attrs q = none) (hd : q ∉ ["figure-caption", "example-caption", "table-caption", "version-label"]) (hq : q ∈ others) (h2 : q ≠ "authors") :
    AMap.get (if h.authors = [] then defaultAttrs cfg
      else AMap.setAll (AMap.set (defaultAttrs cfg) "authors" (.authors (h.authors.map toAuthor))) (expansion 0 h.authors)) q = none := by
  split
  · rw [C60.get_default cfg hd]; exact hA
  · rw [names_other hq, AMap.get_set, if_neg h2, C60.get_default cfg hd]; exact hA

theorem get_number (hA : Plain L cfg) : AMap.get (headAttrs cfg h) "revnumber" = h.revision.bind (fun v => present v.number) := by
  unfold headAttrs
  rw [get_decls (by decide) (by decide)]
  exact rev_number (get_before h hA.number (by decide) (by decide) (by decide)) _

theorem get_date (hA : Plain L cfg) : AMap.get (headAttrs cfg h) "revdate" = h.revision.bind (fun v => present v.date) := by
  unfold headAttrs
  rw [get_decls (by decide) (by decide)]
  exact rev_date (get_before h hA.date (by decide) (by decide) (by decide)) _

theorem get_remark (hA : Plain L cfg) : AMap.get (headAttrs cfg h) "revremark" = h.revision.bind (fun v => present v.remark) := by
  unfold headAttrs
  rw [get_decls (by decide) (by decide)]
  exact rev_remark (get_before h hA.remark (by decide) (by decide) (by decide)) _

end

end C66
end Verif
