import Verif.Proofs.Include
import Verif.Model.Preprocess
import Mathlib.Data.List.Induction
import Mathlib.Data.List.Infix
/-! C03 and C04: which lines of a file are included. -/
namespace Verif.C03

/-! ### Specification -/

/-- Line number `n` lies in the range; an end of -1 means "to the end of the file". -/
def InRange (r : LineRange) (n : Int) : Prop := r.start ≤ n ∧ (n ≤ r.stop ∨ r.stop = -1)

instance (r : LineRange) (n : Int) : Decidable (InRange r n) := by unfold InRange; infer_instance

/-- The line contains a tag macro `tag::name[]` or `end::name[]`. -/
def HasMacro (alnum : Char → Bool) (l : Text) : Prop :=
  ∃ pre kw name post, l = pre ++ kw ++ name ++ "[]".toList ++ post ∧
    (kw = "tag::".toList ∨ kw = "end::".toList) ∧ name ≠ [] ∧ ∀ c ∈ name, alnum c = true

/-- The lines of a file together with their 1-based numbers. -/
def numbered (ls : List Text) : List (Text × Nat) := ls.zipIdx 1

/-! ### Theorems -/

theorem hasTag_iff (alnum : Char → Bool) (hb : alnum '[' = false) (l : Text) :
    hasTag alnum l = true ↔ HasMacro alnum l := by
  have h1 : hasTag alnum l = true ↔ lineTagsAux alnum l.length l ≠ [] := by
    unfold hasTag lineTags
    cases lineTagsAux alnum l.length l <;> simp
  rw [h1, lineTagsAux_nonempty alnum l.length l (Nat.le_refl _)]
  constructor
  · rintro ⟨pre, post, rfl, h⟩
    obtain ⟨⟨m, r⟩, hm⟩ := Option.isSome_iff_exists.1 h
    obtain ⟨n, hn, ha, h | h⟩ := (pTagMacro_iff alnum hb post m r).1 hm
    · exact ⟨pre, _, n, r, by rw [h.2]; simp only [List.append_assoc], Or.inl rfl, hn, ha⟩
    · exact ⟨pre, _, n, r, by rw [h.2]; simp only [List.append_assoc], Or.inr rfl, hn, ha⟩
  · rintro ⟨pre, kw, name, post, rfl, h | h, hn, ha⟩
    · subst h
      refine ⟨pre, "tag::".toList ++ name ++ "[]".toList ++ post, by simp only [List.append_assoc], ?_⟩
      rw [(pTagMacro_iff alnum hb _ (.start name) post).2 ⟨name, hn, ha, Or.inl ⟨rfl, rfl⟩⟩]; rfl
    · subst h
      refine ⟨pre, "end::".toList ++ name ++ "[]".toList ++ post, by simp only [List.append_assoc], ?_⟩
      rw [(pTagMacro_iff alnum hb _ (.stop name) post).2 ⟨name, hn, ha, Or.inr ⟨rfl, rfl⟩⟩]; rfl

theorem readWithinLines_from (alnum : Char → Bool) (rs sorted : List LineRange) (hp : sorted.Perm rs)
    (hs : sorted.Pairwise (fun a b => a.start ≤ b.start)) (ls : List Text) : ∀ n : Nat,
    readWithinLines alnum sorted n ls =
      ((ls.zipIdx (n + 1)).filter
        (fun p => decide (∃ r ∈ rs, InRange r (p.2 : Int)) && !hasTag alnum p.1)).map Prod.fst := by
  induction ls with
  | nil => intro n; rfl
  | cons l ls ih =>
    intro n
    have hm : lineMatch sorted ((n + 1 : Nat) : Int) = decide (∃ r ∈ rs, InRange r ((n + 1 : Nat) : Int)) := by
      rw [Bool.eq_iff_iff, lineMatch_sorted sorted hs, decide_eq_true_iff]
      constructor
      · rintro ⟨r, hr, h⟩; exact ⟨r, hp.mem_iff.1 hr, h⟩
      · rintro ⟨r, hr, h⟩; exact ⟨r, hp.mem_iff.2 hr, h⟩
    rw [List.zipIdx_cons, List.filter_cons]
    unfold readWithinLines
    rw [ih (n + 1), hm]
    dsimp only
    cases hasTag alnum l <;> cases decide (∃ r ∈ rs, InRange r ((n + 1 : Nat) : Int)) <;> simp

/-- **C03.** Whatever sorted permutation of the ranges the Go sort produces, the lines read are
exactly the lines without tag macro whose number is in one of the ranges as written, in file order. -/
theorem lines_selected (alnum : Char → Bool) (rs sorted : List LineRange) (hp : sorted.Perm rs)
    (hs : sorted.Pairwise (fun a b => a.start ≤ b.start)) (ls : List Text) :
    readWithinLines alnum sorted 0 ls =
      ((numbered ls).filter (fun p => decide (∃ r ∈ rs, InRange r (p.2 : Int)) && !hasTag alnum p.1)).map Prod.fst :=
  readWithinLines_from alnum rs sorted hp hs ls 0

/-- **C03**, membership form: the line with number `n` is selected iff it carries no tag macro and
`n` lies in one of the ranges. -/
theorem line_selected_iff (alnum : Char → Bool) (hb : alnum '[' = false) (rs sorted : List LineRange)
    (hp : sorted.Perm rs) (hs : sorted.Pairwise (fun a b => a.start ≤ b.start)) (ls : List Text) :
    ∃ keep : List (Text × Nat), readWithinLines alnum sorted 0 ls = keep.map Prod.fst ∧
      keep.Sublist (numbered ls) ∧
      ∀ l n, (l, n) ∈ numbered ls →
        ((l, n) ∈ keep ↔ (¬ HasMacro alnum l ∧ ∃ r ∈ rs, InRange r (n : Int))) := by
  refine ⟨_, lines_selected alnum rs sorted hp hs ls, List.filter_sublist, fun l n hl => ?_⟩
  rw [List.mem_filter, ← hasTag_iff alnum hb]
  simp [hl, and_comm]

/-- The order in which the ranges are written is irrelevant, for the whole selection step. -/
theorem written_order_irrelevant (alnum : Char → Bool) (rs rs' : List LineRange) (h : rs.Perm rs') (ls : List Text) :
    readWithinLines alnum (newLineRanges rs) 0 ls = readWithinLines alnum (newLineRanges rs') 0 ls := by
  rw [lines_selected alnum rs _ (newLineRanges_perm rs) (newLineRanges_sorted rs),
    lines_selected alnum rs _ ((newLineRanges_perm rs').trans h.symm) (newLineRanges_sorted rs')]

/-- Without `lines` and `tags`, every line that carries no tag macro is included. -/
theorem all_lines (alnum : Char → Bool) (hb : alnum '[' = false) (ls : List Text) :
    (readAll alnum ls).Sublist ls ∧ ∀ l ∈ ls, (l ∈ readAll alnum ls ↔ ¬ HasMacro alnum l) := by
  refine ⟨List.filter_sublist, fun l hl => ?_⟩
  unfold readAll
  rw [List.mem_filter, ← hasTag_iff alnum hb]
  simp [hl]

/-- Finding: because -1 doubles as the "to the end" marker, the single line `lines=-1` selects the
whole file. -/
theorem finding_minus_one_selects_everything (alnum : Char → Bool) (ls : List Text) :
    pLineRanges "-1".toList = some [⟨-1, -1⟩] ∧
      readWithinLines alnum (newLineRanges [⟨-1, -1⟩]) 0 ls = readAll alnum ls := by
  refine ⟨by decide, ?_⟩
  have key : ∀ (ls : List Text) (n : Nat),
      readWithinLines alnum (newLineRanges [⟨-1, -1⟩]) n ls = readAll alnum ls := by
    intro ls
    induction ls with
    | nil => intro n; rfl
    | cons l ls ih =>
      intro n
      have hm : lineMatch (newLineRanges [⟨-1, -1⟩]) ((n + 1 : Nat) : Int) = true := by
        show lineMatch [⟨-1, -1⟩] _ = true
        unfold lineMatch
        rw [if_pos ⟨by show (-1 : Int) ≤ _; omega, Or.inr rfl⟩]
      unfold readWithinLines readAll
      rw [ih (n + 1), hm, List.filter_cons]
      cases hasTag alnum l <;> simp [readAll]
  exact key ls 0

-- non-vacuity: a file of five lines, ranges written out of order
example : readWithinLines Char.isAlphanum (newLineRanges [⟨4, -1⟩, ⟨1, 1⟩]) 0
    ["a".toList, "b".toList, "tag::x[]".toList, "d".toList, "e".toList] = ["a".toList, "d".toList, "e".toList] := by decide
example : Char.isAlphanum '[' = false := by decide

end Verif.C03

namespace Verif.C04

/-! ### Specification -/

/-- A tag event: the named region starts or ends. A line contributes its first `tag::` macro and
then its first `end::` macro. -/
def lineEvents (alnum : Char → Bool) (l : Text) : List TagMacro :=
  ((getStartTag (lineTags alnum l)).toList.map TagMacro.start) ++
  ((getEndTag (lineTags alnum l)).toList.map TagMacro.stop)

/-- All tag events of the given lines, in order. -/
def events (alnum : Char → Bool) (ls : List Text) : List TagMacro := (ls.map (lineEvents alnum)).flatten

/-- After these events the named region is open: it was started and not ended since. -/
def Covered (evs : List TagMacro) (n : Text) : Prop :=
  ∃ pre post, evs = pre ++ TagMacro.start n :: post ∧ TagMacro.stop n ∉ post

/-- The selector applies to a line with these events before it: `**` to all lines, `*` to lines in
any region, a name to the lines of its region. -/
def Applies (evs : List TagMacro) (t : TagRange) : Prop :=
  t.name = ['*', '*'] ∨ (t.name = ['*'] ∧ ∃ n, Covered evs n) ∨
    (t.name ≠ ['*', '*'] ∧ t.name ≠ ['*'] ∧ Covered evs t.name)

/-- The last selector that applies is positive. -/
def Selected (sel : List TagRange) (evs : List TagMacro) : Prop :=
  ∃ pre t post, sel = pre ++ t :: post ∧ Applies evs t ∧ t.included = true ∧ ∀ u ∈ post, ¬ Applies evs u

/-- The event list is well formed: every `end::` was preceded by a `tag::` of the same name. -/
def StopsStarted (evs : List TagMacro) : Prop :=
  ∀ pre n post, evs = pre ++ TagMacro.stop n :: post → TagMacro.start n ∈ pre

/-! ### Proofs -/

/-- The region map holds an open entry for `n`. -/
def OpenIn (cur : CurRanges) (n : Text) : Prop := ∃ r, (n, r) ∈ cur ∧ r.endLine = none

instance (cur : CurRanges) (n : Text) : Decidable (OpenIn cur n) :=
  decidable_of_iff (∃ p ∈ cur, p.1 = n ∧ p.2.endLine = none)
    ⟨fun ⟨p, hp, h1, h2⟩ => ⟨p.2, by rw [← h1]; exact hp, h2⟩, fun ⟨r, hr, h⟩ => ⟨(n, r), hr, rfl, h⟩⟩

def InnerApplies (t : TagRange) (cs : CurRanges) : Prop := ∃ p ∈ cs, p.2.endLine = none ∧ (t.name = ['*'] ∨ t.name = p.1)

instance (t : TagRange) (cs : CurRanges) : Decidable (InnerApplies t cs) := by unfold InnerApplies; infer_instance

theorem inner_eq (t : TagRange) : ∀ (cs : CurRanges) (m : Bool),
    tagMatchInner t cs m = if InnerApplies t cs then t.included else m
  | [], m => by simp [tagMatchInner, InnerApplies]
  | (n, r) :: cs, m => by
    have ih := inner_eq t cs
    unfold tagMatchInner
    rw [ih]
    by_cases h : InnerApplies t cs
    · have h' : InnerApplies t ((n, r) :: cs) := by
        obtain ⟨p, hp, hq⟩ := h; exact ⟨p, List.mem_cons_of_mem _ hp, hq⟩
      rw [if_pos h, if_pos h']
    · rw [if_neg h]
      by_cases h1 : r.endLine = none ∧ (t.name = ['*'] ∨ t.name = n)
      · have h' : InnerApplies t ((n, r) :: cs) := ⟨(n, r), List.mem_cons_self, h1⟩
        rw [if_pos h', if_neg (by simp [h1.1])]
        rcases h1.2 with h2 | h2
        · rw [if_pos h2]
        · rw [if_pos h2]; split <;> rfl
      · have h' : ¬ InnerApplies t ((n, r) :: cs) := by
          rintro ⟨p, hp, hq⟩
          rcases List.mem_cons.1 hp with rfl | hp
          · exact h1 hq
          · exact h ⟨p, hp, hq⟩
        rw [if_neg h']
        by_cases h2 : r.endLine = none
        · rw [if_neg (by simp [h2]), if_neg (fun h => h1 ⟨h2, Or.inl h⟩), if_neg (fun h => h1 ⟨h2, Or.inr h⟩)]
        · rw [if_pos h2]

theorem innerApplies_perm {t : TagRange} {a b : CurRanges} (h : a.Perm b) : InnerApplies t a ↔ InnerApplies t b := by
  unfold InnerApplies
  constructor
  · rintro ⟨p, hp, hq⟩; exact ⟨p, h.mem_iff.1 hp, hq⟩
  · rintro ⟨p, hp, hq⟩; exact ⟨p, h.mem_iff.2 hp, hq⟩

/-- The iteration order over the region map is irrelevant for a single line. -/
theorem tagMatch_order (sel : List TagRange) (cur : CurRanges) (o : TagRange → CurRanges)
    (h : ∀ t, (o t).Perm cur) : tagMatch sel o = tagMatch sel (fun _ => cur) := by
  unfold tagMatch
  congr 1
  funext m t
  rw [inner_eq, inner_eq]
  simp only [innerApplies_perm (h t)]

/-- **C04**, order independence: whatever order the runtime chooses for each iteration over the
region map, the result is the same. -/
theorem order_irrelevant (alnum : Char → Bool) (ord ord' : Nat → TagRange → CurRanges → CurRanges)
    (h : ∀ n t c, (ord n t c).Perm c) (h' : ∀ n t c, (ord' n t c).Perm c) (sel : List TagRange) (ls : List Text) :
    readWithinTags alnum ord sel ls = readWithinTags alnum ord' sel ls := by
  have key : ∀ (ls : List Text) (cur : CurRanges) (n : Nat),
      readTagsLoop alnum ord sel cur n ls = readTagsLoop alnum ord' sel cur n ls := by
    intro ls
    induction ls with
    | nil => intro cur n; rfl
    | cons l ls ih =>
      intro cur n
      unfold readTagsLoop
      dsimp only
      cases updateRanges cur (n + 1) (lineTags alnum l) with
      | error e => rfl
      | ok c =>
        dsimp only
        rw [ih, tagMatch_order sel c _ (fun t => h _ t c), tagMatch_order sel c _ (fun t => h' _ t c)]
  unfold readWithinTags
  rw [key]

/-- The region map after a sequence of events (when no stray end occurs) holds exactly the started
names, open exactly when covered. -/
def MapOK (cur : CurRanges) (evs : List TagMacro) : Prop :=
  (cur.map Prod.fst).Nodup ∧ (∀ n, (curGet cur n).isSome = true ↔ TagMacro.start n ∈ evs) ∧
    ∀ n r, curGet cur n = some r → (r.endLine = none ↔ Covered evs n)

theorem curGet_curSet (cur : CurRanges) (k n : Text) (r : CurRange) :
    curGet (curSet cur k r) n = if k = n then some r else curGet cur n := by
  induction cur with
  | nil => simp [curSet, curGet]
  | cons p cs ih =>
    obtain ⟨m, q⟩ := p
    unfold curSet
    by_cases h : m = k
    · subst h
      rw [if_pos rfl]
      simp only [curGet]
      split <;> rfl
    · rw [if_neg h]
      simp only [curGet, ih]
      by_cases h1 : m = n
      · have : k ≠ n := fun e => h (h1.trans e.symm)
        rw [if_pos h1, if_neg this, if_pos h1]
      · rw [if_neg h1, if_neg h1]

theorem keys_curSet (cur : CurRanges) (k : Text) (r : CurRange) :
    (curSet cur k r).map Prod.fst = if k ∈ cur.map Prod.fst then cur.map Prod.fst else cur.map Prod.fst ++ [k] := by
  induction cur with
  | nil => simp [curSet]
  | cons p cs ih =>
    obtain ⟨m, q⟩ := p
    unfold curSet
    by_cases h : m = k
    · subst h; simp
    · rw [if_neg h]
      simp only [List.map_cons, ih, List.mem_cons]
      have : ¬ k = m := fun e => h e.symm
      by_cases hk : k ∈ cs.map Prod.fst
      · rw [if_pos hk, if_pos (Or.inr hk)]
      · rw [if_neg hk, if_neg (fun e => e.elim this hk)]; rfl

theorem nodup_curSet {cur : CurRanges} (k : Text) (r : CurRange) (h : (cur.map Prod.fst).Nodup) :
    ((curSet cur k r).map Prod.fst).Nodup := by
  rw [keys_curSet]
  split
  · exact h
  · rename_i hk
    rw [List.nodup_append]
    refine ⟨h, by simp, ?_⟩
    intro a ha b hb
    rw [List.mem_singleton] at hb
    subst hb
    exact fun e => hk (e ▸ ha)

theorem mem_iff_curGet {cur : CurRanges} (h : (cur.map Prod.fst).Nodup) (n : Text) (r : CurRange) :
    (n, r) ∈ cur ↔ curGet cur n = some r := by
  induction cur with
  | nil => simp [curGet]
  | cons p cs ih =>
    obtain ⟨m, q⟩ := p
    have h' := List.nodup_cons.1 h
    simp only [curGet]
    by_cases hm : m = n
    · subst hm
      rw [if_pos rfl]
      constructor
      · intro hmem
        rcases List.mem_cons.1 hmem with e | e
        · injection e with _ e; rw [e]
        · exact absurd (List.mem_map_of_mem (f := Prod.fst) e) h'.1
      · intro e; injection e with e; rw [e]; exact List.mem_cons_self
    · rw [if_neg hm, ← ih h'.2, List.mem_cons]
      constructor
      · rintro (e | e)
        · injection e with e _; exact absurd e.symm hm
        · exact e
      · exact Or.inr

theorem covered_snoc_start (evs : List TagMacro) (k n : Text) :
    Covered (evs ++ [.start k]) n ↔ k = n ∨ Covered evs n := by
  constructor
  · rintro ⟨pre, post, h, hp⟩
    rcases List.eq_nil_or_concat post with rfl | ⟨post', x, rfl⟩
    · have := List.append_inj' h rfl
      have h2 := this.2; simp at h2; exact Or.inl h2
    · have h : evs ++ [TagMacro.start k] = (pre ++ TagMacro.start n :: post') ++ [x] := by
        rw [h]; simp
      have := List.append_inj' h rfl
      exact Or.inr ⟨pre, post', this.1, fun hm => hp (by simp [hm])⟩
  · rintro (rfl | ⟨pre, post, rfl, hp⟩)
    · exact ⟨evs, [], rfl, by simp⟩
    · exact ⟨pre, post ++ [.start k], by simp, by simp [hp]⟩

theorem covered_snoc_stop (evs : List TagMacro) (k n : Text) :
    Covered (evs ++ [.stop k]) n ↔ k ≠ n ∧ Covered evs n := by
  constructor
  · rintro ⟨pre, post, h, hp⟩
    rcases List.eq_nil_or_concat post with rfl | ⟨post', x, rfl⟩
    · have := List.append_inj' h rfl
      have h2 := this.2; simp at h2
    · have h : evs ++ [TagMacro.stop k] = (pre ++ TagMacro.start n :: post') ++ [x] := by
        rw [h]; simp
      have h3 := List.append_inj' h rfl
      have hx : TagMacro.stop k = x := by have := h3.2; simpa using this
      refine ⟨fun e => hp (by rw [← hx, e]; simp), ⟨pre, post', h3.1, fun hm => hp (by simp [hm])⟩⟩
  · rintro ⟨hne, pre, post, rfl, hp⟩
    refine ⟨pre, post ++ [.stop k], by simp, ?_⟩
    intro hm
    rcases List.mem_append.1 hm with hm | hm
    · exact hp hm
    · simp at hm; exact hne hm.symm

theorem MapOK.start {cur : CurRanges} {evs : List TagMacro} (h : MapOK cur evs) (k : Text) (i : Nat) :
    MapOK (curSet cur k ⟨i, none⟩) (evs ++ [.start k]) := by
  refine ⟨nodup_curSet _ _ h.1, fun n => ?_, fun n r hr => ?_⟩
  · rw [curGet_curSet]
    by_cases e : k = n
    · rw [if_pos e]; simp [e]
    · rw [if_neg e, h.2.1]
      have : ¬ n = k := fun x => e x.symm
      simp [this]
  · rw [covered_snoc_start]
    rw [curGet_curSet] at hr
    by_cases e : k = n
    · rw [if_pos e] at hr; injection hr with hr; subst hr; simp [e]
    · rw [if_neg e] at hr; rw [h.2.2 n r hr]; simp [e]

theorem MapOK.stop {cur : CurRanges} {evs : List TagMacro} (h : MapOK cur evs) (k : Text) (i : Nat) (r : CurRange)
    (hk : curGet cur k = some r) : MapOK (curSet cur k { r with endLine := some i }) (evs ++ [.stop k]) := by
  have hs : TagMacro.start k ∈ evs := (h.2.1 k).1 (by simp [hk])
  refine ⟨nodup_curSet _ _ h.1, fun n => ?_, fun n q hr => ?_⟩
  · rw [curGet_curSet]
    by_cases e : k = n
    · rw [if_pos e]; subst e; simp [hs]
    · rw [if_neg e, h.2.1]; simp
  · rw [covered_snoc_stop]
    rw [curGet_curSet] at hr
    by_cases e : k = n
    · rw [if_pos e] at hr; injection hr with hr; subst hr; simp [e]
    · rw [if_neg e] at hr; rw [h.2.2 n q hr]; simp [e]

theorem mapOK_nil : MapOK [] [] := by
  refine ⟨by simp, fun n => by simp [curGet], fun n r h => by simp [curGet] at h⟩

theorem stopsStarted_append_left {a b : List TagMacro} (h : StopsStarted (a ++ b)) : StopsStarted a := by
  intro pre n post e
  exact h pre n (post ++ b) (by rw [e]; simp)

theorem stopsStarted_snoc_start {a : List TagMacro} (k : Text) (h : StopsStarted a) : StopsStarted (a ++ [.start k]) := by
  intro pre n post e
  rcases List.eq_nil_or_concat post with rfl | ⟨post', x, rfl⟩
  · have := (List.append_inj' e rfl).2; simp at this
  · have e : a ++ [TagMacro.start k] = (pre ++ TagMacro.stop n :: post') ++ [x] := by rw [e]; simp
    exact h pre n post' (List.append_inj' e rfl).1

theorem stopsStarted_snoc_stop {a : List TagMacro} (k : Text) (h : StopsStarted a) :
    StopsStarted (a ++ [.stop k]) ↔ TagMacro.start k ∈ a := by
  constructor
  · intro h'; exact h' a k [] rfl
  · intro hk pre n post e
    rcases List.eq_nil_or_concat post with rfl | ⟨post', x, rfl⟩
    · have e' := List.append_inj' e rfl
      have := e'.2
      simp at this
      subst this
      rw [← e'.1]; exact hk
    · have e : a ++ [TagMacro.stop k] = (pre ++ TagMacro.stop n :: post') ++ [x] := by rw [e]; simp
      exact h pre n post' (List.append_inj' e rfl).1

theorem updateRanges_spec (alnum : Char → Bool) (cur : CurRanges) (evs : List TagMacro) (n : Nat) (l : Text)
    (hm : MapOK cur evs) (hs : StopsStarted evs) :
    (∃ cur', updateRanges cur n (lineTags alnum l) = .ok cur' ∧ MapOK cur' (evs ++ lineEvents alnum l) ∧
        StopsStarted (evs ++ lineEvents alnum l)) ∨
    (updateRanges cur n (lineTags alnum l) = .error .panic ∧ ¬ StopsStarted (evs ++ lineEvents alnum l)) := by
  have aux : ∀ (cur : CurRanges) (evs : List TagMacro), MapOK cur evs → StopsStarted evs →
      (∃ cur', (match getEndTag (lineTags alnum l) with
        | some e => match curGet cur e with
          | some r => Except.ok (curSet cur e { r with endLine := some n })
          | none => Except.error Err.panic
        | none => Except.ok cur) = .ok cur' ∧
          MapOK cur' (evs ++ (getEndTag (lineTags alnum l)).toList.map TagMacro.stop) ∧
          StopsStarted (evs ++ (getEndTag (lineTags alnum l)).toList.map TagMacro.stop)) ∨
      ((match getEndTag (lineTags alnum l) with
        | some e => match curGet cur e with
          | some r => Except.ok (curSet cur e { r with endLine := some n })
          | none => Except.error Err.panic
        | none => Except.ok cur) = .error .panic ∧
          ¬ StopsStarted (evs ++ (getEndTag (lineTags alnum l)).toList.map TagMacro.stop)) := by
    intro cur evs hm hs
    cases getEndTag (lineTags alnum l) with
    | none => left; exact ⟨cur, rfl, by simpa using hm, by simpa using hs⟩
    | some e =>
      cases hg : curGet cur e with
      | none =>
        right
        refine ⟨by simp only [hg], ?_⟩
        show ¬ StopsStarted (evs ++ [TagMacro.stop e])
        rw [stopsStarted_snoc_stop e hs, ← hm.2.1, hg]; simp
      | some r =>
        left
        refine ⟨curSet cur e { r with endLine := some n }, by simp only [hg], hm.stop e n r hg, ?_⟩
        show StopsStarted (evs ++ [TagMacro.stop e])
        rw [stopsStarted_snoc_stop e hs, ← hm.2.1, hg]; rfl
  unfold updateRanges lineEvents
  cases getStartTag (lineTags alnum l) with
  | none => exact aux cur evs hm hs
  | some s =>
    have := aux (curSet cur s ⟨n, none⟩) (evs ++ [.start s]) (hm.start s n) (stopsStarted_snoc_start s hs)
    simp only [List.append_assoc] at this
    exact this

theorem innerApplies_iff {cur : CurRanges} {evs : List TagMacro} (hm : MapOK cur evs) (t : TagRange)
    (h2 : t.name ≠ ['*', '*']) : InnerApplies t cur ↔ Applies evs t := by
  have hopen : ∀ n, (∃ r, (n, r) ∈ cur ∧ r.endLine = none) ↔ Covered evs n := by
    intro n
    constructor
    · rintro ⟨r, hr, he⟩
      exact (hm.2.2 n r ((mem_iff_curGet hm.1 n r).1 hr)).1 he
    · intro hc
      have : TagMacro.start n ∈ evs := by obtain ⟨pre, post, e, _⟩ := hc; rw [e]; simp
      obtain ⟨r, hr⟩ := Option.isSome_iff_exists.1 ((hm.2.1 n).2 this)
      exact ⟨r, (mem_iff_curGet hm.1 n r).2 hr, (hm.2.2 n r hr).2 hc⟩
  unfold InnerApplies Applies
  constructor
  · rintro ⟨⟨n, r⟩, hp, he, h | h⟩
    · exact Or.inr (Or.inl ⟨h, n, (hopen n).1 ⟨r, hp, he⟩⟩)
    · have hc : Covered evs t.name := by rw [h]; exact (hopen n).1 ⟨r, hp, he⟩
      by_cases hs : t.name = ['*']
      · exact Or.inr (Or.inl ⟨hs, _, hc⟩)
      · exact Or.inr (Or.inr ⟨h2, hs, hc⟩)
  · rintro (h | ⟨h, n, hc⟩ | ⟨_, _, hc⟩)
    · exact absurd h h2
    · obtain ⟨r, hr, he⟩ := (hopen n).2 hc
      exact ⟨(n, r), hr, he, Or.inl h⟩
    · obtain ⟨r, hr, he⟩ := (hopen _).2 hc
      exact ⟨(t.name, r), hr, he, Or.inr rfl⟩

theorem tagMatch_iff {cur : CurRanges} {evs : List TagMacro} (hm : MapOK cur evs) (sel : List TagRange)
    (hsel : ∀ t ∈ sel, t.name = ['*', '*'] → t.included = true) :
    tagMatch sel (fun _ => cur) = true ↔ Selected sel evs := by
  classical
  unfold tagMatch
  induction sel using List.reverseRecOn with
  | nil => simp [Selected]
  | append_singleton sel t ih =>
    have ih := ih (fun u hu => hsel u (List.mem_append_left _ hu))
    rw [List.foldl_append, List.foldl_cons, List.foldl_nil]
    have split : Selected (sel ++ [t]) evs ↔ (Applies evs t ∧ t.included = true) ∨ (¬ Applies evs t ∧ Selected sel evs) := by
      constructor
      · rintro ⟨pre, u, post, e, ha, hi, hpost⟩
        rcases List.eq_nil_or_concat post with rfl | ⟨post', x, rfl⟩
        · have := List.append_inj' e rfl
          have h2 := this.2; simp at h2; subst h2
          exact Or.inl ⟨ha, hi⟩
        · have e : sel ++ [t] = (pre ++ u :: post') ++ [x] := by rw [e]; simp
          have h3 := List.append_inj' e rfl
          have hx : t = x := by have := h3.2; simpa using this
          subst hx
          exact Or.inr ⟨hpost t (by simp), pre, u, post', h3.1, ha, hi, fun v hv => hpost v (by simp [hv])⟩
      · rintro (⟨ha, hi⟩ | ⟨hna, pre, u, post, rfl, ha, hi, hpost⟩)
        · exact ⟨sel, t, [], rfl, ha, hi, by simp⟩
        · refine ⟨pre, u, post ++ [t], by simp, ha, hi, fun v hv => ?_⟩
          rcases List.mem_append.1 hv with hv | hv
          · exact hpost v hv
          · simp at hv; rw [hv]; exact hna
    rw [split, ← ih]
    by_cases h2 : t.name = ['*', '*']
    · rw [if_pos h2]
      have ha : Applies evs t := Or.inl h2
      have hi := hsel t (by simp) h2
      simp [ha, hi]
    · rw [if_neg h2, inner_eq]
      by_cases ha : Applies evs t
      · rw [if_pos ((innerApplies_iff hm t h2).2 ha)]
        simp [ha]
      · rw [if_neg (fun h => ha ((innerApplies_iff hm t h2).1 h))]
        simp [ha]

/-- The lines read so far, and the tag events of the whole file, starting after `before`. -/
theorem loop_spec (alnum : Char → Bool) (sel : List TagRange)
    (hsel : ∀ t ∈ sel, t.name = ['*', '*'] → t.included = true) (ls : List Text) :
    ∀ (cur : CurRanges) (n : Nat) (before : List TagMacro), MapOK cur before → StopsStarted before →
      (StopsStarted (before ++ events alnum ls) →
        ∃ keep : List (Text × List TagMacro), ∃ cur',
          readTagsLoop alnum (fun _ _ c => c) sel cur n ls = .ok (keep.map Prod.fst, cur') ∧
          MapOK cur' (before ++ events alnum ls) ∧
          keep = ((ls.zip ((ls.inits.drop 1).map (fun p => before ++ events alnum p))).filter
            (fun p => @decide (Selected sel p.2) (Classical.propDecidable _) && !hasTag alnum p.1))) ∧
      (¬ StopsStarted (before ++ events alnum ls) →
        readTagsLoop alnum (fun _ _ c => c) sel cur n ls = .error .panic) := by
  induction ls with
  | nil =>
    intro cur n before hm hs
    refine ⟨fun _ => ⟨[], cur, rfl, by simpa [events] using hm, rfl⟩, fun h => absurd (by simpa [events] using hs) h⟩
  | cons l ls ih =>
    intro cur n before hm hs
    have hev : before ++ events alnum (l :: ls) = (before ++ lineEvents alnum l) ++ events alnum ls := by
      simp [events]
    rcases updateRanges_spec alnum cur before (n + 1) l hm hs with ⟨c, hu, hm', hs'⟩ | ⟨hu, hns⟩
    · have ih := ih c (n + 1) _ hm' hs'
      rw [hev]
      unfold readTagsLoop
      dsimp only
      rw [hu]
      dsimp only
      constructor
      · intro h
        obtain ⟨keep, cur', h1, h2, h3⟩ := ih.1 h
        rw [h1]
        dsimp only
        have hzip : (l :: ls).zip (((l :: ls).inits.drop 1).map (fun p => before ++ events alnum p)) =
            (l, before ++ lineEvents alnum l) ::
              ls.zip ((ls.inits.drop 1).map (fun p => (before ++ lineEvents alnum l) ++ events alnum p)) := by
          have : (l :: ls).inits.drop 1 = [l] :: (ls.inits.drop 1).map (fun p => l :: p) := by
            cases ls <;> simp
          rw [this]
          simp [events, Function.comp_def]
        rw [hzip, List.filter_cons, ← h3]
        dsimp only
        have ht : (lineTags alnum l).isEmpty = !hasTag alnum l := by simp [hasTag]
        have hm2 : tagMatch sel (fun _ => c) = @decide (Selected sel (before ++ lineEvents alnum l)) (Classical.propDecidable _) := by
          rw [Bool.eq_iff_iff, tagMatch_iff hm' sel hsel, @decide_eq_true_iff _ (Classical.propDecidable _)]
        rw [hm2, ht]
        split
        · exact ⟨_, cur', rfl, h2, rfl⟩
        · exact ⟨_, cur', rfl, h2, rfl⟩
      · intro h
        rw [ih.2 h]
    · rw [hev]
      constructor
      · intro h; exact absurd (stopsStarted_append_left h) hns
      · intro _
        unfold readTagsLoop
        dsimp only
        rw [hu]

/-- A named selector whose tag does not occur in the file. -/
def Missing (alnum : Char → Bool) (sel : List TagRange) (ls : List Text) : Prop :=
  ∃ t ∈ sel, t.name ≠ ['*'] ∧ t.name ≠ ['*', '*'] ∧ TagMacro.start t.name ∉ events alnum ls

/-- **C04.** For selectors without `!**`, for every file and every map iteration order: the outcome
is a panic iff some `end::` has no earlier `tag::`; otherwise an error iff a named tag is missing;
otherwise exactly the lines without macro for which the last applicable selector is positive (the
regions being those opened and not closed at that line), in file order. -/
theorem tags_selected (alnum : Char → Bool) (ord : Nat → TagRange → CurRanges → CurRanges)
    (hord : ∀ n t c, (ord n t c).Perm c) (sel : List TagRange)
    (hsel : ∀ t ∈ sel, t.name = ['*', '*'] → t.included = true) (ls : List Text) :
    (¬ StopsStarted (events alnum ls) → readWithinTags alnum ord sel ls = .error .panic) ∧
    (StopsStarted (events alnum ls) → Missing alnum sel ls → readWithinTags alnum ord sel ls = .error .error) ∧
    (StopsStarted (events alnum ls) → ¬ Missing alnum sel ls →
      ∃ keep : List (Text × List TagMacro),
        readWithinTags alnum ord sel ls = .ok (keep.map Prod.fst) ∧
        keep.Sublist (ls.zip ((ls.inits.drop 1).map (events alnum))) ∧
        ∀ l evs, (l, evs) ∈ ls.zip ((ls.inits.drop 1).map (events alnum)) →
          ((l, evs) ∈ keep ↔ (hasTag alnum l = false ∧ Selected sel evs))) := by
  rw [order_irrelevant alnum ord (fun _ _ c => c) hord (fun _ _ c => List.Perm.refl c)]
  have hl := loop_spec alnum sel hsel ls [] 0 [] mapOK_nil (by intro pre n post e; simp at e)
  simp only [List.nil_append] at hl
  have hmiss : ∀ cur', MapOK cur' (events alnum ls) →
      (sel.all (fun t => t.name = ['*'] || t.name = ['*', '*'] || (curGet cur' t.name).isSome) = true ↔ ¬ Missing alnum sel ls) := by
    intro cur' hm
    rw [List.all_eq_true]
    unfold Missing
    constructor
    · rintro h ⟨t, ht, h1, h2, h3⟩
      have := h t ht
      rw [← hm.2.1] at h3
      simp only [h1, h2, decide_false, Bool.false_or, h3] at this
      exact absurd this (by simp)
    · intro h t ht
      simp only [Bool.or_eq_true, decide_eq_true_eq, hm.2.1]
      by_cases h1 : t.name = ['*']
      · exact Or.inl (Or.inl h1)
      · by_cases h2 : t.name = ['*', '*']
        · exact Or.inl (Or.inr h2)
        · right
          by_cases h3 : TagMacro.start t.name ∈ events alnum ls
          · exact h3
          · exact absurd ⟨t, ht, h1, h2, h3⟩ h
  unfold readWithinTags
  refine ⟨fun h => ?_, fun h hmi => ?_, fun h hmi => ?_⟩
  · rw [hl.2 h]
  · obtain ⟨keep, cur', h1, h2, h3⟩ := hl.1 h
    rw [h1]
    dsimp only
    rw [if_neg (fun e => (hmiss cur' h2).1 e hmi)]
  · obtain ⟨keep, cur', h1, h2, h3⟩ := hl.1 h
    rw [h1]
    dsimp only
    rw [if_pos ((hmiss cur' h2).2 hmi)]
    refine ⟨keep, rfl, ?_, ?_⟩
    · rw [h3]; exact List.filter_sublist
    · intro l evs hmem
      rw [h3, List.mem_filter]
      simp only [Bool.and_eq_true, decide_eq_true_eq, Bool.not_eq_true']
      exact ⟨fun h => ⟨h.2.2, h.2.1⟩, fun h => ⟨hmem, h.2, h.1⟩⟩

/-- Finding: `!**` does not exclude anything, it selects every line like `**`. -/
theorem finding_negated_double_star_selects (sel : List TagRange) (o : TagRange → CurRanges) :
    tagMatch (sel ++ [⟨['*', '*'], false⟩]) o = true := by
  unfold tagMatch
  rw [List.foldl_append]
  rfl

/-- Finding: a stray `end::x[]` crashes the inclusion, whatever the selectors. -/
theorem finding_stray_end_panics :
    readWithinTags Char.isAlphanum (fun _ _ c => c) [⟨"x".toList, true⟩] ["end::x[]".toList] = .error .panic := rfl

-- non-vacuity
example : readWithinTags Char.isAlphanum (fun _ _ c => c.reverse) [⟨"a".toList, true⟩, ⟨"b".toList, false⟩]
    ["0".toList, "tag::a[]".toList, "1".toList, "tag::b[]".toList, "2".toList, "end::b[]".toList,
     "3".toList, "end::a[]".toList, "4".toList] = .ok ["1".toList, "3".toList] := rfl
example : StopsStarted (events Char.isAlphanum ["tag::a[]".toList, "x".toList, "end::a[]".toList]) := by
  have : events Char.isAlphanum ["tag::a[]".toList, "x".toList, "end::a[]".toList] =
    [.start "a".toList] ++ [.stop "a".toList] := by decide
  rw [this, stopsStarted_snoc_stop _ (by
    intro pre n post e
    exact stopsStarted_snoc_start (a := []) _ (by intro _ _ _ e; simp at e) pre n post e)]
  simp

end Verif.C04
