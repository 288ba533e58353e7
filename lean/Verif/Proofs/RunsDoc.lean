import Verif.Proofs.RunsElement
import Verif.Proofs.RenderDoc
/-!
The rendering of documents runs (C53, C54, C55).
-/
namespace Verif.Rend
open Verif.Tmpl (Tm Templates html5 xhtml5)
open Verif (Text)

/-! ### Authors -/

theorem authorsOf_error : ∀ {l : List El} {cur : Option (List Author)} {x : Err}, authorsOf l cur = .error x → x = .panic
  | [], _, _, h => nomatch h
  | e :: l, cur, x, h => by
    have ih : ∀ {cur}, authorsOf l cur = .error x → x = .panic := fun h => authorsOf_error h
    unfold authorsOf at h
    split at h
    · rename_i h'; cases h'
    · rename_i h'; cases h'
      split at h
      · split at h
        · cases h
        · exact ih h
      split at h
      · split at h
        · split at h
          · exact ih h
          · exact ih h
          · cases h; rfl
        · exact ih h
      split at h
      · split at h
        · split at h
          · exact ih h
          · exact ih h
          · cases h; rfl
        · exact ih h
      · exact ih h
    · rename_i h'; cases h'; exact ih h

/-- All authors have a name. -/
def Named (l : Option (List Author)) : Prop := ∀ a ∈ l.getD [], a.name ≠ none

theorem authorsOf_named : ∀ {l : List El} {seen : Bool} {cur : Option (List Author)}, AuthorsOk seen l →
    Named cur → (seen = false → cur = none) → (seen = true → ∃ a as, cur = some (a :: as)) →
    ∃ r, authorsOf l cur = .ok r ∧ Named r
  | [], _, cur, _, h, _, _ => ⟨cur, rfl, h⟩
  | e :: l, seen, cur, ha, hn, h0, h1 => by
    have ih : ∀ {seen : Bool} {cur : Option (List Author)}, AuthorsOk seen l → Named cur → (seen = false → cur = none) →
      (seen = true → ∃ a as, cur = some (a :: as)) → ∃ r, authorsOf l cur = .ok r ∧ Named r := fun a b c d => authorsOf_named a b c d
    cases e with
    | attrDecl name v =>
      cases v with
      | str t =>
        have ha : (if name = "author" then AuthorsOk true l else if name = "email" then seen = true ∧ AuthorsOk seen l else AuthorsOk seen l) := ha
        unfold authorsOf
        dsimp only
        by_cases e1 : name = "author"
        · subst e1
          rw [if_pos rfl] at ha
          rw [if_neg (by decide), if_neg (by decide), if_pos rfl]
          cases cur with
          | none =>
            refine ih ha ?_ (fun h => nomatch h) fun _ => ⟨_, _, rfl⟩
            intro a h; rw [Option.getD_some, List.mem_singleton] at h; subst h; exact fun h => nomatch h
          | some as =>
            cases as with
            | nil =>
              cases hs : seen with
              | false => cases h0 hs
              | true => obtain ⟨a, as, h⟩ := h1 hs; cases h
            | cons a as =>
              obtain ⟨nm, em⟩ := a
              cases nm with
              | none => exact absurd rfl (hn ⟨none, em⟩ (List.mem_cons_self ..))
              | some nm =>
                refine ih ha ?_ (fun h => nomatch h) fun _ => ⟨_, _, rfl⟩
                intro a h
                rcases List.mem_cons.mp h with rfl | h
                · exact fun h => nomatch h
                · exact hn a (List.mem_cons_of_mem _ h)
        · rw [if_neg e1] at ha
          by_cases e2 : name = "email"
          · subst e2
            rw [if_pos rfl] at ha
            rw [if_neg (by decide), if_pos rfl]
            obtain ⟨a, as, e⟩ := h1 ha.1
            subst e
            refine ih ha.2 ?_ (fun h => by rw [ha.1] at h; cases h) fun _ => ⟨_, _, rfl⟩
            intro b h
            rcases List.mem_cons.mp h with rfl | h
            · exact hn a (List.mem_cons_self ..)
            · exact hn b (List.mem_cons_of_mem _ h)
          · rw [if_neg e2] at ha
            by_cases e3 : name = "authors"
            · rw [if_pos e3]; exact ih ha hn h0 h1
            · rw [if_neg e3, if_neg e2, if_neg e1]; exact ih ha hn h0 h1
      | authors as =>
        have ha : (if name = "authors" then ∀ a ∈ as, a.name ≠ none else AuthorsOk seen l) := ha
        unfold authorsOf
        dsimp only
        by_cases e1 : name = "authors"
        · rw [if_pos e1] at ha ⊢
          exact ⟨_, rfl, ha⟩
        · rw [if_neg e1] at ha ⊢
          split
          · exact ih ha hn h0 h1
          split
          · exact ih ha hn h0 h1
          · exact ih ha hn h0 h1
      | _ =>
        have ha : AuthorsOk seen l := ha
        unfold authorsOf
        dsimp only
        split
        · exact ih ha hn h0 h1
        split
        · exact ih ha hn h0 h1
        split
        · exact ih ha hn h0 h1
        · exact ih ha hn h0 h1
    | _ => exact ih (seen := seen) ha hn h0 h1

theorem fullName_error {a : Author} {x : Err} (h : fullName a = .error x) : x = .panic ∧ a.name = none := by
  obtain ⟨nm, em⟩ := a
  cases nm with
  | none => cases h; exact ⟨rfl, rfl⟩
  | some nm => cases h

theorem expandAuthors_error : ∀ {l : List Author} {i : Nat} {x : Err}, expandAuthors i l = .error x → x = .panic ∧ ∃ a ∈ l, a.name = none
  | [], _, _, h => nomatch h
  | a :: l, i, x, h => by
    unfold expandAuthors at h
    cases hf : fullName a with
    | error y =>
      rw [hf] at h; cases h
      exact ⟨(fullName_error hf).1, a, List.mem_cons_self .., (fullName_error hf).2⟩
    | ok t =>
      rw [hf] at h
      simp only [bind, Except.bind] at h
      cases hr : expandAuthors (i + 1) l with
      | error y =>
        rw [hr] at h; cases h
        obtain ⟨h1, b, hb, h2⟩ := expandAuthors_error hr
        exact ⟨h1, b, List.mem_cons_of_mem _ hb, h2⟩
      | ok r => rw [hr] at h; cases h

theorem authorNames_error : ∀ {l : List Author} {x : Err}, authorNames l = .error x → x = .panic ∧ ∃ a ∈ l, a.name = none
  | [], _, h => nomatch h
  | a :: l, x, h => by
    unfold authorNames at h
    cases hf : fullName a with
    | error y =>
      rw [hf] at h; cases h
      exact ⟨(fullName_error hf).1, a, List.mem_cons_self .., (fullName_error hf).2⟩
    | ok t =>
      rw [hf] at h
      simp only [bind, Except.bind] at h
      cases hr : authorNames l with
      | error y =>
        rw [hr] at h; cases h
        obtain ⟨h1, b, hb, h2⟩ := authorNames_error hr
        exact ⟨h1, b, List.mem_cons_of_mem _ hb, h2⟩
      | ok r => rw [hr] at h; cases h

/-- The keys which an attribute may not have by the header. -/
def watched : List String := ["icons", "toc-title", "toc", "doctype"]

section
variable {E : Err → Prop} {d : Doc} {L : Lib} {rank : Label → Nat} {S : Nat}

theorem attrGood_other {k : String} {v : AV} (h : k ∉ watched) : AttrGood E d L rank S k v := by
  have h1 : k ≠ "icons" := fun e => h (by subst e; decide)
  have h2 : k ≠ "toc-title" := fun e => h (by subst e; decide)
  have h3 : k ≠ "toc" := fun e => h (by subst e; decide)
  have h4 : k ≠ "doctype" := fun e => h (by subst e; decide)
  exact ⟨.inr ⟨fun e => absurd e h1, fun e => absurd e h2, fun e => absurd e h3⟩, .inr fun e => absurd e h4, fun e => absurd e h2⟩

theorem authorKey_watched {k : String} (i : Nat) (hk : ∀ x ∈ watched, k.toList.isPrefixOf x.toList = false) : authorKey k i ∉ watched := by
  intro h
  have h1 := hk _ h
  have h2 : k.toList <+: (authorKey k i).toList := by
    unfold authorKey
    split
    · exact List.prefix_refl _
    · rw [String.toList_append, String.toList_append, List.append_assoc]
      exact List.prefix_append _ _
  rw [List.isPrefixOf_iff_prefix.mpr h2] at h1
  cases h1

theorem expandAuthors_keys : ∀ {l : List Author} {i : Nat} {r : Attrs}, expandAuthors i l = .ok r → ∀ p ∈ r, p.1 ∉ watched
  | [], _, _, h, p, hp => by cases h; cases hp
  | a :: l, i, r, h, p, hp => by
    unfold expandAuthors at h
    cases hf : fullName a with
    | error y => rw [hf] at h; cases h
    | ok t =>
      rw [hf] at h
      simp only [bind, Except.bind] at h
      cases hr : expandAuthors (i + 1) l with
      | error y => rw [hr] at h; cases h
      | ok r' =>
        rw [hr] at h
        cases h
        have opt : ∀ {q : Prop} [Decidable q] {k : String} {v : AV}, k ∉ watched → p ∈ (if q then [] else [(k, v)]) → p.1 ∉ watched := by
          intro q _ k v hk h
          split at h
          · cases h
          · rw [List.mem_singleton] at h; subst h; exact hk
        rcases List.mem_append.mp hp with hp | hp
        · rcases List.mem_append.mp hp with hp | hp
          · rcases List.mem_append.mp hp with hp | hp
            · rcases List.mem_append.mp hp with hp | hp
              · rcases List.mem_cons.mp hp with rfl | hp
                · exact authorKey_watched i (by decide)
                · rw [List.mem_singleton] at hp; subst hp; exact authorKey_watched i (by decide)
              · exact opt (authorKey_watched i (by decide)) hp
            · exact opt (authorKey_watched i (by decide)) hp
          · exact opt (authorKey_watched i (by decide)) hp
        · exact expandAuthors_keys hr p hp

theorem expandRevision_keys {r : Text × Text × Text} : ∀ p ∈ expandRevision r, p.1 ∉ watched := by
  obtain ⟨a, b, c⟩ := r
  intro p hp
  have opt : ∀ {q : Prop} [Decidable q] {k : String} {v : AV}, k ∉ watched → p ∈ (if q then [] else [(k, v)]) → p.1 ∉ watched := by
    intro q _ k v hk h
    split at h
    · cases h
    · rw [List.mem_singleton] at h; subst h; exact hk
  rcases List.mem_append.mp hp with hp | hp
  · rcases List.mem_append.mp hp with hp | hp
    · rcases List.mem_append.mp hp with hp | hp
      · rw [List.mem_singleton] at hp; subst hp; show "revision" ∉ watched; decide
      · exact opt (by decide) hp
    · exact opt (by decide) hp
  · exact opt (by decide) hp

def AttrsGood (E : Err → Prop) (d : Doc) (L : Lib) (rank : Label → Nat) (S : Nat) (a : Attrs) : Prop :=
  ∀ k v, AMap.get a k = some v → AttrGood E d L rank S k v

theorem AttrsGood.set {a : Attrs} (h : AttrsGood E d L rank S a) {k : String} {v : AV} (hv : AttrGood E d L rank S k v) :
    AttrsGood E d L rank S (a.set k v) := by
  intro k' v' e
  rw [AMap.get_set] at e
  split at e
  · rename_i e'; cases e; subst e'; exact hv
  · exact h k' v' e

theorem AttrsGood.del {a : Attrs} (h : AttrsGood E d L rank S a) {k : String} : AttrsGood E d L rank S (a.del k) := by
  intro k' v' e
  rw [AMap.get_del] at e
  split at e
  · cases e
  · exact h k' v' e

theorem addAuthors_good {a : Attrs} (ha : AttrsGood E d L rank S a) {as : Option (List Author)} {r : Attrs} (h : addAuthors a as = .ok r) :
    AttrsGood E d L rank S r := by
  cases as with
  | none => cases h; exact ha
  | some l =>
    unfold addAuthors at h
    dsimp only at h
    cases hx : expandAuthors 0 l with
    | error x => rw [hx] at h; cases h
    | ok x =>
      rw [hx] at h
      cases h
      exact setAll_held (ha.set (attrGood_other (by decide))) fun p hp => attrGood_other (expandAuthors_keys hx p hp)

theorem addRevision_good {a : Attrs} (ha : AttrsGood E d L rank S a) {r : Option (Text × Text × Text)} :
    AttrsGood E d L rank S (addRevision a r) := by
  cases r with
  | none => exact ha
  | some r => exact setAll_held ha fun p hp => attrGood_other (expandRevision_keys p hp)

theorem addHeader_good {a : Attrs} (ha : AttrsGood E d L rank S a) {h : Option (Attrs × Option (List El) × List El)} {r : Attrs}
    (e : addHeader a h = .ok r) : AttrsGood E d L rank S r := by
  cases h with
  | none => cases e; exact ha
  | some p =>
    obtain ⟨b, t, els⟩ := p
    unfold addHeader at e
    dsimp only at e
    split at e
    · cases e
    · split at e
      · cases e
      · rename_i hx
        cases e
        exact addRevision_good (addAuthors_good ha hx)

theorem addHeader_error {a : Attrs} (hauth : E .panic ∨ AuthorsOk false (headerEls d)) {x : Err}
    (e : addHeader a (header d.elements) = .error x) : E x := by
  cases hh : header d.elements with
  | none => rw [hh] at e; cases e
  | some p =>
    obtain ⟨b, t, els⟩ := p
    rw [hh] at e
    have hels : headerEls d = els := by unfold headerEls; rw [hh]
    rw [hels] at hauth
    unfold addHeader at e
    dsimp only at e
    cases ha : authorsOf els none with
    | error y =>
      rw [ha] at e; cases e
      have hy := authorsOf_error ha
      subst hy
      refine hauth.resolve_right fun h => ?_
      obtain ⟨r, hr, _⟩ := authorsOf_named h (cur := none) (fun _ h => nomatch h) (fun _ => rfl) fun h => nomatch h
      rw [hr] at ha; cases ha
    | ok as =>
      rw [ha] at e
      dsimp only at e
      cases hx : addAuthors a as with
      | ok r => rw [hx] at e; cases e
      | error y =>
        rw [hx] at e; cases e
        cases as with
        | none => cases hx
        | some l =>
          unfold addAuthors at hx
          dsimp only at hx
          cases hex : expandAuthors 0 l with
          | ok r => rw [hex] at hx; cases hx
          | error z =>
            rw [hex] at hx; cases hx
            obtain ⟨rfl, a, hal, hn⟩ := expandAuthors_error hex
            refine hauth.resolve_right fun h => ?_
            obtain ⟨r, hr, hnm⟩ := authorsOf_named h (cur := none) (fun _ h => nomatch h) (fun _ => rfl) fun h => nomatch h
            rw [hr] at ha; cases ha
            exact hnm a hal hn

theorem authorsMeta_error (hauth : E .panic ∨ AuthorsOk false (headerEls d)) {x : Err}
    (e : authorsMeta (header d.elements) = .error x) : E x := by
  cases hh : header d.elements with
  | none => rw [hh] at e; cases e
  | some p =>
    obtain ⟨b, t, els⟩ := p
    rw [hh] at e
    have hels : headerEls d = els := by unfold headerEls; rw [hh]
    rw [hels] at hauth
    unfold authorsMeta at e
    dsimp only at e
    cases ha : authorsOf els none with
    | error y =>
      rw [ha] at e; cases e
      have hy := authorsOf_error ha
      subst hy
      refine hauth.resolve_right fun h => ?_
      obtain ⟨r, hr, _⟩ := authorsOf_named h (cur := none) (fun _ h => nomatch h) (fun _ => rfl) fun h => nomatch h
      rw [hr] at ha; cases ha
    | ok as =>
      rw [ha] at e
      cases as with
      | none => cases e
      | some l =>
        dsimp only at e
        cases hex : authorNames l with
        | ok r => rw [hex] at e; cases e
        | error z =>
          rw [hex] at e; cases e
          obtain ⟨rfl, a, hal, hn⟩ := authorNames_error hex
          refine hauth.resolve_right fun h => ?_
          obtain ⟨r, hr, hnm⟩ := authorsOf_named h (cur := none) (fun _ h => nomatch h) (fun _ => rfl) fun h => nomatch h
          rw [hr] at ha; cases ha
          exact hnm a hal hn

theorem defaultAttrs_good {cfg : Config} (h : AttrsGood E d L rank S cfg.attrs) : AttrsGood E d L rank S (defaultAttrs cfg) :=
  (((h.set (attrGood_other (by decide))).set (attrGood_other (by decide))).set (attrGood_other (by decide))).set (attrGood_other (by decide))

theorem headerDecls_good : ∀ {l : List El} {a : Attrs}, (∀ name v, El.attrDecl name v ∈ l → AttrGood E d L rank S name v) →
    AttrsGood E d L rank S a → AttrsGood E d L rank S (headerDecls l a)
  | [], _, _, ha => ha
  | e :: l, a, hl, ha => by
    have hl' : ∀ name v, El.attrDecl name v ∈ l → AttrGood E d L rank S name v := fun n v hx => hl n v (List.mem_cons_of_mem _ hx)
    unfold headerDecls
    split
    · rename_i h; cases h
    · rename_i h; cases h; exact headerDecls_good hl' (ha.set (hl _ _ (List.mem_cons_self ..)))
    · rename_i h; cases h; exact headerDecls_good hl' ha.del
    · rename_i h; cases h; exact headerDecls_good hl' ha

theorem leadingDecls_good : ∀ {l : List El} {a : Attrs}, (∀ name v, El.attrDecl name v ∈ l → AttrGood E d L rank S name v) →
    AttrsGood E d L rank S a → AttrsGood E d L rank S (leadingDecls l a)
  | [], _, _, ha => ha
  | e :: l, a, hl, ha => by
    have hl' : ∀ name v, El.attrDecl name v ∈ l → AttrGood E d L rank S name v := fun n v hx => hl n v (List.mem_cons_of_mem _ hx)
    unfold leadingDecls
    split
    · rename_i h; cases h; exact leadingDecls_good hl' (ha.set (hl _ _ (List.mem_cons_self ..)))
    · rename_i h; cases h; exact leadingDecls_good hl' ha.del
    · exact ha

end

/-! ### The authors in the details of the document -/

/-- The key of the `i`-th author. -/
def nthAuthor (i : Nat) : String := if i = 1 then "author" else "author_" ++ (if i = 1 then "" else toString i)

theorem nthAuthor_inj {i j : Nat} (hi : 1 ≤ i) (hj : 1 ≤ j) (h : nthAuthor i = nthAuthor j) : i = j := by
  unfold nthAuthor at h
  have len : ∀ n : Nat, ("author_" ++ toString n : String).toList ≠ "author".toList := by
    intro n e
    rw [String.toList_append] at e
    have := congrArg List.length e
    rw [List.length_append] at this
    have h1 : "author_".toList.length = 7 := by decide
    have h2 : "author".toList.length = 6 := by decide
    omega
  by_cases e1 : i = 1
  · by_cases e2 : j = 1
    · omega
    · simp only [if_pos e1, if_neg e2] at h
      exact absurd (congrArg String.toList h).symm (len j)
  · by_cases e2 : j = 1
    · simp only [if_pos e2, if_neg e1] at h
      exact absurd (congrArg String.toList h) (len i)
    · simp only [if_neg e1, if_neg e2] at h
      have h := congrArg String.toList h
      rw [String.toList_append, String.toList_append] at h
      have h : (toString i).toList = (toString j).toList := List.append_cancel_left h
      have h : (Nat.repr i).toList = (Nat.repr j).toList := h
      rw [Nat.toList_repr, Nat.toList_repr] at h
      have h := congrArg (Nat.ofDigitChars 10 · 0) h
      rwa [Nat.ofDigitChars_toDigits (by decide) (by decide), Nat.ofDigitChars_toDigits (by decide) (by decide)] at h

theorem nodup_le {l m : List String} (hl : l.Nodup) (h : ∀ x ∈ l, x ∈ m) : l.length ≤ m.length := by
  induction l generalizing m with
  | nil => exact Nat.zero_le _
  | cons x l ih =>
    rw [List.nodup_cons] at hl
    have hx := h x (List.mem_cons_self ..)
    have := ih (m := m.erase x) hl.2 fun y hy => by
      have hne : y ≠ x := fun e => hl.1 (e ▸ hy)
      exact (List.mem_erase_of_ne hne).mpr (h y (List.mem_cons_of_mem _ hy))
    rw [List.length_erase_of_mem hx] at this
    have hpos : 0 < m.length := List.length_pos_of_mem hx
    rw [List.length_cons]
    omega

theorem getStr_mem {a : Attrs} {k : String} {t : Text} (h : getStr a k = some t) : k ∈ a.map (·.1) := by
  unfold getStr at h
  split at h
  · rename_i hv; exact List.mem_map.mpr ⟨_, AMap.get_eq_some_mem hv, rfl⟩
  · cases h

section
variable {E : Err → Prop} {d : Doc} {A : String → AV → Prop} {L : Lib}

theorem authorDetails_run (hL : E .fail ∨ Standard L) {doc : Attrs} : ∀ (fuel i : Nat) (seen : List String), 1 ≤ i →
    seen.Nodup → (∀ x ∈ seen, x ∈ doc.map (·.1) ∧ ∃ j, 1 ≤ j ∧ j < i ∧ x = nthAuthor j) → doc.length + 1 ≤ seen.length + fuel →
    Run E (Held d A) (authorDetails L doc fuel i)
  | 0, i, seen, _, hn, hs, hl => by
    have := nodup_le hn fun x hx => (hs x hx).1
    rw [List.length_map] at this
    omega
  | fuel + 1, i, seen, hi, hn, hs, hl => by
    unfold authorDetails
    extract_lets index key email
    have hkey : key = nthAuthor i := rfl
    cases ha : getStr doc key with
    | none => exact Run.pure
    | some t =>
      dsimp only
      refine Runs.bind (exec_runs hL (by filled)) fun _ _ => ?_
      refine Runs.bind (authorDetails_run hL fuel (i + 1) (nthAuthor i :: seen) (by omega) ?_ ?_ ?_) fun _ _ => Run.pure
      · rw [List.nodup_cons]
        refine ⟨fun hm => ?_, hn⟩
        obtain ⟨_, j, h1, h2, e⟩ := hs _ hm
        have := nthAuthor_inj hi h1 e
        omega
      · intro x hx
        rcases List.mem_cons.mp hx with rfl | hx
        · exact ⟨getStr_mem (hkey ▸ ha), i, hi, by omega, rfl⟩
        · obtain ⟨h0, j, h1, h2, e⟩ := hs x hx
          exact ⟨h0, j, h1, by omega, e⟩
      · rw [List.length_cons]; omega

theorem documentDetails_run (hL : E .fail ∨ Standard L) : Run E (Held d A) (documentDetails L) := by
  unfold documentDetails
  refine Runs.bind docAttrs_run fun doc _ => ?_
  split
  · refine Runs.bind (authorDetails_run hL _ 1 [] (by omega) List.nodup_nil (fun _ h => nomatch h) (by simp)) fun _ _ => ?_
    exact exec_runs hL (by filled)
  · exact Run.pure

end

/-! ### The document -/

theorem bodyElements_of_mem : ∀ {l : List El} {e : El}, e ∈ l → (∀ a t s, e ≠ .docHeader a t s) → e ∈ bodyElements l
  | x :: l, e, h, hne => by
    by_cases hd : ∃ a t s, x = .docHeader a t s
    · obtain ⟨a, t, s, rfl⟩ := hd
      rcases List.mem_cons.mp h with rfl | h
      · exact absurd rfl (hne _ _ _)
      · exact h
    · have e1 : bodyElements (x :: l) = x :: bodyElements l := by
        cases x <;> first | rfl | exact absurd ⟨_, _, _, rfl⟩ hd
      rw [e1]
      rcases List.mem_cons.mp h with rfl | h
      · exact List.mem_cons_self ..
      · exact List.mem_cons_of_mem _ (bodyElements_of_mem h hne)

theorem attrEls_set {a : Attrs} {k : String} {t : Text} {e : El} (h : e ∈ attrEls (AMap.set a k (.str t))) : e ∈ attrEls a := by
  obtain ⟨p, hp, he⟩ := List.mem_flatMap.mp h
  rcases List.mem_cons.mp hp with rfl | hp
  · cases he
  · exact List.mem_flatMap.mpr ⟨p, (List.mem_filter.mp hp).1, he⟩

/-- What must hold of a document, up to the allowed errors. -/
structure DocGood (E : Err → Prop) (L : Lib) (rank : Label → Nat) (S K : Nat) (d : Doc) (cfg : Config) : Prop where
  body : ∀ e ∈ bodyElements d.elements, Sound E d L rank S K e
  head : ∀ a t els, header d.elements = some (a, t, els) → (E .fail ∨ RolesOk a) ∧
    (∀ e ∈ attrEls a ++ t.getD [] ++ els, Sound E d L rank S K e) ∧ (E .fail ∨ ∀ e ∈ t.getD [], Plainable e)
  refs : ∀ p ∈ d.refs, ∀ e ∈ valueEls p.2, Sound E d L rank S (rank (.ref p.1)) e
  notes : ∀ n ∈ d.footnotes, ∀ e ∈ n.els, Sound E d L rank S K e
  config : AttrsGood E d L rank S cfg.attrs
  authors : E .panic ∨ AuthorsOk false (headerEls d)
  toc : E .fail ∨ ∀ l, d.toc = some (some l) → TocsKnown d l
  ranks : E .fuel ∨ rank .tocTitle < K ∧ ∀ p ∈ d.refs, rank (.ref p.1) < K

section
variable {E : Err → Prop} {d : Doc} {cfg : Config} {L : Lib} {rank : Label → Nat} {S K : Nat}

local notation "I" => Held d (AttrGood E d L rank S)

section
variable {re : El → M Text} {pl : Bool → El → Except Err Text}

mutual
theorem prerenderEntry_run (hr : ∀ id l, d.refs.lookup id = some (.els l) → ∀ e ∈ l, Run E I (re e)) :
    ∀ (t : Toc), (E .fail ∨ TocKnown d t) → Run E I (prerenderEntry re t)
  | .entry id level title number children, ht => by
    unfold prerenderEntry
    refine Runs.bind (prerenderSections_run hr children (ht.imp (fun h => h) fun h => h.2)) fun _ _ => ?_
    refine Runs.bind Runs.get fun c hc => ?_
    rw [hc.1]
    cases hl : d.refs.lookup id with
    | none =>
      refine Runs.error (ht.resolve_right ?_)
      rintro ⟨⟨l, h⟩, _⟩
      rw [hl] at h; cases h
    | some v =>
      cases v with
      | els l => exact Runs.bind (renderAll_run (hr id l hl)) fun _ _ => Run.pure
      | _ =>
        refine Runs.error (ht.resolve_right ?_)
        rintro ⟨⟨l, h⟩, _⟩
        rw [hl] at h; cases h
theorem prerenderSections_run (hr : ∀ id l, d.refs.lookup id = some (.els l) → ∀ e ∈ l, Run E I (re e)) :
    ∀ (l : List Toc), (E .fail ∨ TocsKnown d l) → Run E I (prerenderSections re l)
  | [], _ => Run.pure
  | t :: l, ht => by
    unfold prerenderSections
    refine Runs.bind (prerenderEntry_run hr t (ht.imp (fun h => h) fun h => h.1)) fun _ _ => ?_
    exact Runs.bind (prerenderSections_run hr l (ht.imp (fun h => h) fun h => h.2)) fun _ _ => Run.pure
end

theorem prerenderToc_run (hr : ∀ id l, d.refs.lookup id = some (.els l) → ∀ e ∈ l, Run E I (re e))
    (ht : E .fail ∨ ∀ l, d.toc = some (some l) → TocsKnown d l) :
    Runs E I (fun t => d.toc = none → t = none) (prerenderToc re d.toc) := by
  cases h : d.toc with
  | none => exact Runs.pure fun _ => rfl
  | some t =>
    cases t with
    | none => exact Runs.pure fun h => nomatch h
    | some l =>
      unfold prerenderToc
      refine Runs.bind (prerenderSections_run hr l (ht.imp (fun h => h) fun ht => ht l h)) fun _ _ => ?_
      exact Runs.pure fun h => nomatch h

theorem renderFootnotes_run (hL : E .fail ∨ Standard L) {notes : List Footnote} (hn : ∀ n ∈ notes, ∀ e ∈ n.els, Run E I (re e)) :
    Run E I (renderFootnotes L re notes) := by
  have all : ∀ {notes : List Footnote}, (∀ n ∈ notes, ∀ e ∈ n.els, Run E I (re e)) → Run E I (footnoteElements L re notes) := by
    intro notes
    induction notes with
    | nil => exact fun _ => Run.pure
    | cons n l ih =>
      intro h
      unfold footnoteElements
      refine Runs.bind (P := fun _ => True) ?_ fun _ _ => ?_
      · unfold footnoteElement
        refine Runs.bind (renderInline_run (h n (List.mem_cons_self ..))) fun _ _ => ?_
        exact exec_runs hL (by filled)
      · exact Runs.bind (ih fun m hm => h m (List.mem_cons_of_mem _ hm)) fun _ _ => Run.pure
  unfold renderFootnotes
  split
  · exact Run.pure
  · exact Runs.bind (all hn) fun _ _ => exec_runs hL (by filled)

theorem documentHeader_run (hL : E .fail ∨ Standard L) {h : Option (Attrs × Option (List El) × List El)}
    (hh : ∀ a t els, h = some (a, t, els) → ∀ e ∈ t.getD [], Run E I (re e)) : Run E I (documentHeader L re h) := by
  cases h with
  | none => exact Run.pure
  | some p =>
    obtain ⟨a, t, els⟩ := p
    unfold documentHeader
    refine Runs.bind (renderAll_run (hh a t els rfl)) fun _ _ => ?_
    refine Runs.bind (documentDetails_run hL) fun _ _ => ?_
    exact exec_runs hL (by filled)

/-- An element of the body, or the table of contents, or a preamble with its table of contents. -/
theorem inPreamble_mem {t : Option (List Toc)} : ∀ {l : List El} {e : El}, e ∈ inPreamble t l →
    e ∈ l ∨ ∃ els s, e = .preamble els t ∧ El.preamble els s ∈ l
  | [], e, h => nomatch h
  | x :: l, e, h => by
    by_cases hx : ∃ els s, x = .preamble els s
    · obtain ⟨els, s, rfl⟩ := hx
      rcases List.mem_cons.mp h with rfl | h
      · exact .inr ⟨els, s, rfl, List.mem_cons_self ..⟩
      · exact .inl (List.mem_cons_of_mem _ h)
    · have e1 : inPreamble t (x :: l) = x :: inPreamble t l := by
        cases x <;> first | rfl | exact absurd ⟨_, _, rfl⟩ hx
      rw [e1] at h
      rcases List.mem_cons.mp h with rfl | h
      · exact .inl (List.mem_cons_self ..)
      · refine (inPreamble_mem h).imp (List.mem_cons_of_mem _) ?_
        rintro ⟨els, s, e1, e2⟩
        exact ⟨els, s, e1, List.mem_cons_of_mem _ e2⟩

theorem placeToc_mem {doc : Attrs} {toc : Option (Option (List Toc))} {source els : List El} (h : placeToc doc toc source = .ok els) :
    ∀ e ∈ els, e ∈ source ∨ (∃ t, e = .toc t) ∨ ∃ t x s, e = .preamble x t ∧ El.preamble x s ∈ source := by
  intro e he
  have front : ∀ {t : Option (List Toc)}, els = .toc t :: source → e ∈ source ∨ (∃ t, e = .toc t) ∨
      ∃ t x s, e = .preamble x t ∧ El.preamble x s ∈ source := by
    rintro t rfl
    rcases List.mem_cons.mp he with rfl | he
    · exact .inr (.inl ⟨_, rfl⟩)
    · exact .inl he
  unfold placeToc at h
  split at h
  · split at h
    · cases h
      rcases inPreamble_mem he with h | ⟨x, s, h1, h2⟩
      · exact .inl h
      · exact .inr (.inr ⟨_, x, s, h1, h2⟩)
    · split at h
      · cases h; exact front rfl
      · cases h
  · cases h; exact front rfl
  · cases h
  · cases h; exact .inl he

theorem placeToc_error {doc : Attrs} {toc : Option (Option (List Toc))} {source : List El} {x : Err}
    (hdoc : ∀ k v, AMap.get doc k = some v → AttrGood E d L rank S k v) (ht : d.toc = none → toc = none)
    (h : placeToc doc toc source = .error x) : E x := by
  have key : ∀ v t, AMap.get doc "toc" = some v → toc = some t → E .fail ∨ v = .nil ∨ v = .str [] ∨ v = .str "preamble".toList := by
    intro v t hv e
    refine (hdoc _ _ hv).1.imp (fun h => h) fun h => h.2.2 rfl fun e' => ?_
    rw [ht e'] at e; cases e
  unfold placeToc at h
  split at h
  · rename_i t tc hv
    have hk := key _ _ hv rfl
    split at h
    · cases h
    · rename_i h1
      split at h
      · cases h
      · rename_i h2
        cases h
        refine hk.resolve_right ?_
        rintro (h | h | h)
        · cases h
        · cases h; exact h2 rfl
        · cases h; exact h1 rfl
  · cases h
  · rename_i v tc hn1 hn2 hv
    cases h
    refine (key _ _ hv rfl).resolve_right ?_
    rintro (h | h | h)
    · exact hn2 h
    · exact hn1 _ h
    · exact hn1 _ h
  · cases h

theorem documentBody_run (hL : E .fail ∨ Standard L) {source : List El} {toc : Option (Option (List Toc))} {notes : List Footnote}
    (hs : ∀ e ∈ source, Run E I (re e)) (htoc : ∀ t, Run E I (re (.toc t))) (hpre : ∀ x s t, El.preamble x s ∈ source → Run E I (re (.preamble x t)))
    (ht : d.toc = none → toc = none) (hn : ∀ n ∈ notes, ∀ e ∈ n.els, Run E I (re e)) :
    Run E I (documentBody L re source toc notes) := by
  unfold documentBody
  refine Runs.bind docAttrs_run fun doc hdoc => ?_
  refine Runs.bind (P := fun els => ∀ e ∈ els, Run E I (re e)) (Runs.lift (fun x h => placeToc_error hdoc ht h) ?_) fun els hels => ?_
  · intro els h e he
    rcases placeToc_mem h e he with h | ⟨t, rfl⟩ | ⟨t, x, s, rfl, h⟩
    · exact hs e h
    · exact htoc t
    · exact hpre x s t h
  refine Runs.bind (renderAll_run hels) fun _ _ => ?_
  exact Runs.bind (renderFootnotes_run hL hn) fun _ _ => Run.pure

theorem getStrD_alone {sprint : AV → Text} {a : Attrs} {k : String} {v : AV} (h : AMap.get a k = some v) (x y : Text) :
    getStrD sprint a k x = getStrD sprint [(k, v)] k y := by
  have h2 : AMap.get [(k, v)] k = some v := by rw [AMap.get_cons, if_pos rfl]
  unfold getStrD
  rw [h, h2]
  cases v <;> rfl

end

theorem manpageHeader_run (hL : E .fail ∨ Standard L) (hA : E .fail ∨ ∀ k v, AttrGood E d L rank S k v → DocAttrOk L d k v)
    {re : El → M Text} {pl : Bool → El → Except Err Text}
    {head : Option (Option (List El))} (hh : ∀ e ∈ (head.getD none).getD [], Run E I (re e)) {name : El}
    (hshape : E .panic ∨ ∃ level a title pa pels els, name = .sect level a title (.paragraph pa pels :: els))
    (ht : ∀ level a title els, name = .sect level a title els → ∀ e ∈ title, Run E I (re e))
    (hp : ∀ level a title pa pels els, name = .sect level a title (.paragraph pa pels :: els) →
      (E .fail ∨ TitleOk pa) ∧ (E .fail ∨ RolesOk pa) ∧ ∀ e ∈ kids (.paragraph pa pels), Run E I (re e)) :
    Run E I (manpageHeader L re pl head name) := by
  unfold manpageHeader
  refine Runs.bind (renderAll_run hh) fun _ _ => ?_
  cases name with
  | sect level a title els =>
    dsimp only
    refine Runs.bind (renderAll_run (ht _ _ _ _ rfl)) fun _ _ => ?_
    split
    · rename_i pa pels rest
      obtain ⟨h1, h2, h3⟩ := hp _ _ _ _ _ _ rfl
      refine Runs.bind (renderParagraph_run hL hA ?_ ?_ ?_ (fun e he => h3 e (List.mem_append_left _ (attrEls_set he)))
        (fun e he => h3 e (List.mem_append_right _ he)) ?_) fun _ _ => exec_runs hL (by filled)
      · refine h1.imp (fun h => h) fun h v hv => h v ?_
        rwa [AMap.get_set, if_neg (by decide)] at hv
      · refine h2.imp (fun h => h) fun h v hv => h v ?_
        rwa [AMap.get_set, if_neg (by decide)] at hv
      · intro h
        unfold getStr at h
        rw [AMap.get_set_self] at h
        cases h
      · intro h
        unfold getStr at h
        rw [AMap.get_set_self] at h
        cases h
    · rename_i hno
      refine Runs.error (hshape.resolve_right ?_)
      rintro ⟨_, _, _, pa, pels, els', h⟩
      cases h
      exact hno _ _ _ rfl
  | _ =>
    refine Runs.error (hshape.resolve_right ?_)
    rintro ⟨_, _, _, _, _, _, h⟩
    cases h

/-- The elements of a good document are rendered, given the depth. -/
theorem doc_elements (hL : E .fail ∨ Standard L) (hd : DocGood E L rank S K d cfg) {n : Nat} (hn : E .fuel ∨ S + K * S + 1 ≤ n) :
    (∀ e, Sound E d L rank S K e → Run E I (renderElement L n e)) ∧
    (∀ id l, d.refs.lookup id = some (.els l) → ∀ e ∈ l, Run E I (renderElement L n e)) ∧
    (∀ t, Run E I (renderElement L n (.toc t))) ∧
    ∀ x s t, Sound E d L rank S K (.preamble x s) → Run E I (renderElement L n (.preamble x t)) := by
  have step : ∀ e, Every kids (Fine E d L rank K) e → (E .fuel ∨ ∀ x ∈ kids e, sizeOf x ≤ S) → (∀ name v, e ≠ .attrDecl name v) →
      (∀ a, e ≠ .frontMatter a) → Run E I (renderElement L n e) := by
    intro e he hs h1 h2
    cases n with
    | zero =>
      unfold renderElement
      exact Runs.error (hn.resolve_right fun h => by omega)
    | succ n =>
      refine step_run hL hd.refs (fun k e => good_run hL hd.refs n k) he hs ?_ (fun name v h => absurd h (h1 _ _)) (fun a h => absurd h (h2 _))
      rcases hn with h | h
      · exact .inl h
      rcases hs with h' | h'
      · exact .inl h'
      · exact .inr ⟨by omega, fun x hx => by have := h' x hx; omega⟩
  refine ⟨fun e he => ?_, fun id l hl e he => ?_, fun t => ?_, fun x s t h => ?_⟩
  · refine good_run hL hd.refs n K he ?_
    rcases hn with h | h
    · exact .inl h
    · exact he.2.imp (fun h => h) fun h' => by omega
  · have hg := hd.refs _ (mem_lookup hl) e he
    refine good_run hL hd.refs n _ hg ?_
    rcases hn with h | h
    · exact .inl h
    rcases hg.2 with h' | h'
    · exact .inl h'
    refine hd.ranks.imp (fun h => h) fun hr => ?_
    have := hr.2 _ (mem_lookup hl)
    have := Nat.mul_le_mul_right S (Nat.le_of_lt this)
    dsimp only at *
    omega
  · refine step _ (.intro ⟨.inr trivial, .inr trivial, hd.ranks.imp (fun h => h) fun h => ⟨?_, trivial⟩⟩ fun k hk => nomatch hk)
      (.inr fun x hx => nomatch hx) (fun _ _ h => nomatch h) fun _ h => nomatch h
    intro l hl; cases hl; exact h.1
  · have hk : ∀ k ∈ kids (.preamble x t), Sound E d L rank S K k := fun k hk => h.kid (show k ∈ kids (.preamble x s) from hk)
    refine step _ (.intro ⟨.inr trivial, .inr trivial, hd.ranks.imp (fun h => h) fun h => ⟨?_, trivial⟩⟩ fun k hx => (hk k hx).1)
      ?_ (fun _ _ h => nomatch h) fun _ h => nomatch h
    · intro l hl; cases hl; exact h.1
    · rcases Classical.em (E .fuel) with he | he
      · exact .inl he
      · exact .inr fun k hx => (hk k hx).2.resolve_left he

theorem splitAndRender_run (hL : E .fail ∨ Standard L) (hd : DocGood E L rank S K d cfg) {n : Nat} (hn : E .fuel ∨ S + K * S + 1 ≤ n)
    {toc : Option (Option (List Toc))} (ht : d.toc = none → toc = none) {wrap : Bool} {pl : Bool → El → Except Err Text} :
    Run E I (splitAndRender L (renderElement L n) pl wrap { d with toc := toc }) := by
  obtain ⟨h1, _, h3, h4⟩ := doc_elements hL hd hn
  have hA : E .fail ∨ ∀ k v, AttrGood E d L rank S k v → DocAttrOk L d k v := by
    rcases Classical.em (E .fail) with h | h
    · exact .inl h
    · exact .inr fun _ _ hA => hA.1.resolve_left h
  have hnotes : ∀ m ∈ d.footnotes, ∀ e ∈ m.els, Run E I (renderElement L n e) := fun m hm e he => h1 e (hd.notes m hm e he)
  have body : ∀ {source : List El}, (∀ e ∈ source, Sound E d L rank S K e) →
      Run E I (documentBody L (renderElement L n) source toc d.footnotes) := fun hs =>
    documentBody_run hL (fun e he => h1 e (hs e he)) h3 (fun x s t hm => h4 x s t (hs _ hm)) ht hnotes
  have title : ∀ a t els, header d.elements = some (a, t, els) → ∀ e ∈ t.getD [], Run E I (renderElement L n e) := fun a t els hh e he =>
    h1 e ((hd.head a t els hh).2.1 e (List.mem_append_left _ (List.mem_append_right _ he)))
  unfold splitAndRender
  refine Runs.bind docAttrs_run fun doc hdoc => ?_
  dsimp only
  by_cases hm : getStrD L.sprint doc "doctype" "article".toList = "manpage".toList
  · rw [if_pos hm]
    have hshape : E .panic ∨ ManpageShape d := by
      cases hv : AMap.get doc "doctype" with
      | none =>
        unfold getStrD at hm
        rw [hv] at hm
        exact absurd (show "article".toList = "manpage".toList from hm) (by decide)
      | some v =>
        refine (hdoc _ _ hv).2.1.imp (fun h => h) fun h => (h rfl).resolve_right ?_
        rw [getStrD_alone hv _ []] at hm
        exact fun h => h hm
    have hbody := hd.body
    have hshape : E .panic ∨ ∃ level a title pa pels els rest,
      bodyElements d.elements = .sect level a title (.paragraph pa pels :: els) :: rest := hshape
    generalize bodyElements d.elements = b at hbody hshape
    cases b with
    | nil =>
      refine Runs.error (hshape.resolve_right ?_)
      rintro ⟨_, _, _, _, _, _, _, h⟩
      cases h
    | cons name rest =>
      dsimp only
      have hrest := body (source := rest) fun e he => hbody e (List.mem_cons_of_mem _ he)
      have hname := hbody name (List.mem_cons_self ..)
      have man : ∀ {head : Option (Option (List El))}, (∀ e ∈ (head.getD none).getD [], Run E I (renderElement L n e)) →
          Run E I (manpageHeader L (renderElement L n) pl head name) := by
        intro head hh
        refine manpageHeader_run hL hA hh (hshape.imp (fun h => h) ?_) ?_ ?_
        · rintro ⟨l, a, t, pa, pe, els, r, h⟩
          exact ⟨l, a, t, pa, pe, els, (List.cons.inj h).1⟩
        · rintro l a t els rfl e he
          exact h1 e (hname.kid (List.mem_append_left _ (List.mem_append_right _ he)))
        · rintro l a t pa pe els rfl
          have hg := hname.kid (x := .paragraph pa pe) (List.mem_append_right _ (List.mem_cons_self ..))
          exact ⟨hg.1.here.1.imp (fun h => h) fun h => h.1, hg.1.here.1.imp (fun h => h) fun h => h.2.1, fun e he => h1 e (hg.kid he)⟩
      split
      · refine Runs.bind (man ?_) fun _ _ => Runs.bind hrest fun _ _ => Run.pure
        cases hh : header d.elements with
        | none => exact fun e he => nomatch he
        | some p =>
          obtain ⟨a, t, els⟩ := p
          exact title a t els hh
      · exact Runs.bind (man fun e he => nomatch he) fun _ _ => Runs.bind hrest fun _ _ => Run.pure
  · rw [if_neg hm]
    exact Runs.bind (documentHeader_run hL title) fun _ _ => Runs.bind (body hd.body) fun _ _ => Run.pure

theorem renderParts_run (hL : E .fail ∨ Standard L) (hd : DocGood E L rank S K d cfg) {n : Nat} (hn : E .fuel ∨ S + K * S + 1 ≤ n)
    {wrap : Bool} {pl : Bool → El → Except Err Text} : Run E I (renderParts L (renderElement L n) pl wrap d) := by
  obtain ⟨h1, h2, _, _⟩ := doc_elements hL hd hn
  unfold renderParts
  refine Runs.bind (prerenderToc_run h2 hd.toc) fun toc ht => ?_
  refine Runs.bind (splitAndRender_run hL hd hn ht) fun _ _ => ?_
  refine Runs.bind (P := fun _ => True) ?_ fun _ _ => Run.pure
  cases hh : header d.elements with
  | none => exact Run.pure
  | some p =>
    obtain ⟨a, t, els⟩ := p
    obtain ⟨hr, hels, _⟩ := hd.head a t els hh
    exact elementRoles_run hr fun e he => h1 e (hels e (List.mem_append_left _ (List.mem_append_left _ he)))

theorem article_total (d : Doc) (cfg : Config) (c : Rend.Ctx) (title authors h b roles : Text) (hL : E .fail ∨ Standard L)
    (hx : L.tmpl.article.render L.lower (articleEnv L d cfg c title authors h b roles) = none) : E .fail := by
  have hr : Run E (fun _ => True) (exec L (·.article) (articleEnv L d cfg c title authors h b roles)) := by
    unfold articleEnv
    exact exec_runs hL (by filled)
  refine (hr c trivial).1 .fail ?_
  unfold exec
  rw [hx]
  rfl

/-- The rendering of a good document only fails with the allowed errors. -/
theorem render_runs (hL : E .fail ∨ Standard L) (hd : DocGood E L rank S K d cfg) {n : Nat} (hn : E .fuel ∨ S + K * S + 1 ≤ n)
    {x : Err} (h : render L n d cfg = .error x) : E x := by
  unfold render at h
  dsimp only at h
  rw [if_pos rfl] at h
  cases hc : newContext d cfg with
  | error e =>
    rw [hc] at h
    cases h
    unfold newContext at hc
    cases ha : addHeader (defaultAttrs cfg) (header d.elements) with
    | error e => rw [ha] at hc; cases hc; exact addHeader_error hd.authors ha
    | ok a => rw [ha] at hc; cases hc
  | ok c =>
    rw [hc] at h
    dsimp only at h
    have hstart : I (startContext d c) := by
      unfold newContext at hc
      cases ha : addHeader (defaultAttrs cfg) (header d.elements) with
      | error e => rw [ha] at hc; cases hc
      | ok a =>
        rw [ha] at hc
        cases hc
        have g1 := addHeader_good (defaultAttrs_good hd.config) ha
        refine ⟨rfl, ?_⟩
        have decls : ∀ name v, El.attrDecl name v ∈ d.elements → AttrGood E d L rank S name v := fun name v hm => by
          have hb : El.attrDecl name v ∈ bodyElements d.elements := bodyElements_of_mem hm fun _ _ _ h => nomatch h
          exact good_decl (hd.body _ hb)
        refine leadingDecls_good decls ?_
        cases hh : header d.elements with
        | none => exact g1
        | some p =>
          obtain ⟨a', t, els⟩ := p
          exact headerDecls_good (fun name v hm => good_decl ((hd.head _ _ _ hh).2.1 _ (List.mem_append_right _ hm))) g1
    cases ht : documentTitle (plain L (some Escape.escapeString) n) (header d.elements) with
    | error e =>
      rw [ht] at h
      cases h
      cases hh : header d.elements with
      | none => rw [hh] at ht; cases ht
      | some p =>
        obtain ⟨a, t, els⟩ := p
        rw [hh] at ht
        cases t with
        | none => cases ht
        | some t =>
          obtain ⟨_, hels, hpl⟩ := hd.head _ _ _ hh
          refine plainInline_err (fun e he => ?_) x ht
          refine plain_err (esc := true) n ?_ ?_
          · refine (every_or (fun _ _ => size_plainKids) (hpl.imp (fun h => h) fun h => h e he)).mono fun e h => ⟨h, .inr (.inl rfl)⟩
          · have hg := hels e (List.mem_append_left _ (List.mem_append_right _ he))
            rcases hn with hn | hn
            · exact .inl hn
            · exact hg.2.imp (fun h => h) fun h => by omega
    | ok title =>
      rw [ht] at h
      dsimp only at h
      have hp := (renderParts_run hL hd hn (wrap := cfg.wrap)
        (pl := fun esc => plain L (if esc then some Escape.escapeString else none) n)) _ hstart
      cases hq : renderParts L (renderElement L n) (fun esc => plain L (if esc then some Escape.escapeString else none) n) cfg.wrap d
          (startContext d c) with
      | error e => rw [hq] at h; cases h; exact hp.1 _ hq
      | ok r =>
        obtain ⟨parts, c'⟩ := r
        rw [hq] at h
        dsimp only at h
        unfold renderPage at h
        split at h
        · cases hm : authorsMeta (header d.elements) with
          | error e => rw [hm] at h; cases h; exact authorsMeta_error hd.authors hm
          | ok authors =>
            rw [hm] at h
            dsimp only at h
            split at h
            · cases h
            · rename_i hx
              cases h
              exact article_total d cfg c' _ _ _ _ _ hL hx
        · cases h

end

end Verif.Rend
