import Verif.Props.WovenTree
import Verif.Model.Xrefs
import Verif.Spec.Woven

/-!
# C70 — References to sections: what they refer to, and what they show
-/
namespace Verif
namespace C69
open Sectioned
open Rend hiding Item bind_ok
open C63 (seen refOf shown docOf)

/-- References are resolved as titles are. -/
theorem resolved {alnum : Char → Bool} (hu : alnum '_' = false) (hb : alnum ' ' = false) (fmt : Val → Text) {attrs : AMap Val}
    (h1 : AMap.get attrs "idprefix" = none) (h2 : AMap.get attrs "idseparator" = none) (id : Text) :
    resolveXref alnum fmt attrs (.str id) = if ' ' ∈ id then anchor alnum id else id := by
  unfold resolveXref
  dsimp only
  by_cases h : ' ' ∈ id
  · rw [if_pos h, if_pos (List.contains_iff_mem.2 h)]
    have := C63.base_anchor hu hb (fmt := fmt) h1 h2 1 id
    unfold baseID at this
    rw [if_neg (fun h => h rfl)] at this
    exact this
  · rw [if_neg h, if_neg (fun h' => h (List.contains_iff_mem.1 h'))]

theorem sections_shown (alnum : Char → Bool) (xs : List Item) : C68.titles (shown alnum xs) = Woven.sections alnum xs := C68.titles_filter alnum xs []

/-- The place that is meant. -/
theorem fixed {alnum : Char → Bool} (hu : alnum '_' = false) (hb : alnum ' ' = false) (fmt : Val → Text) {attrs : AMap Val}
    (h1 : AMap.get attrs "idprefix" = none) (h2 : AMap.get attrs "idseparator" = none) (xs : List Item) (id : Text) :
    fixXref alnum fmt attrs (((shown alnum xs).filterMap refOf).reverse ++ []) id = Woven.target alnum xs id := by
  unfold fixXref Woven.target
  rw [resolved hu hb fmt h1 h2]
  have hlen : (((shown alnum xs).filterMap refOf).reverse ++ []).length = (Woven.sections alnum xs).length := by
    rw [List.append_nil, List.length_reverse, ← sections_shown, ← List.length_map (f := Prod.fst), C68.keys_titles, List.length_map]
  rw [hlen]
  by_cases hn : Woven.sections alnum xs = []
  · rw [hn, if_neg (by simp), if_neg (fun h => h.2 rfl)]
  · rw [if_pos (List.length_pos_iff.2 hn)]
    by_cases hs : ' ' ∈ id
    · rw [if_pos hs, if_pos ⟨hs, hn⟩]
    · rw [if_neg hs, if_neg (fun h => hs h.1)]

/-- What is recorded. -/
theorem looked_up (alnum : Char → Bool) (depth : Int) (xs : List Item) (id : Text) :
    (docOf alnum depth xs).refs.lookup id = ((Woven.sections alnum xs).find? (fun s => s.2 == id)).map (fun s => AV.els [.str s.1.title]) := by
  show (C63.backRefs (((shown alnum xs).filterMap refOf).reverse ++ [])).lookup id = _
  rw [List.append_nil, ← sections_shown]
  cases hf : (C68.titles (shown alnum xs)).find? (fun s => s.2 == id) with
  | some s =>
    have h1 := List.mem_of_find?_eq_some hf
    have h2 : s.2 = id := by simpa using List.find?_some hf
    rw [← h2]
    exact C68.recorded alnum (xs.filter seen) [] s h1
  | none =>
    rw [List.find?_eq_none] at hf
    show _ = none
    rw [List.lookup_eq_none_iff]
    rintro ⟨k, v⟩ hp
    have hk : k ∈ (C63.backRefs ((shown alnum xs).filterMap refOf).reverse).map Prod.fst := List.mem_map.mpr ⟨_, hp, rfl⟩
    rw [C68.backRefs_keys, List.map_reverse, List.mem_reverse, C68.keys_titles] at hk
    obtain ⟨s, hs, rfl⟩ := List.mem_map.mp hk
    have := hf s hs
    simp only [beq_iff_eq] at this
    simp only [bne_iff_ne, ne_eq]
    exact fun e => this e.symm

/-- What is shown. -/
theorem labelled {L : Lib} {u : Bool} {alnum : Char → Bool} {depth : Int} {xs : List Item} (hn : C63.Neat alnum (shown alnum xs)) {c : Rend.Ctx}
    (hu : getBoolD c.attrs "unicode" true = u) (hr : c.refs = (docOf alnum depth xs).refs) (n : Nat) (pl : Bool → El → Except Rend.Err Text) (id : Text) :
    Rend.refLabel (renderElement L (n + 1)) pl id (c.refs.lookup id) c = .ok (Woven.label alnum u xs id, c) := by
  rw [hr, looked_up]
  unfold Woven.label
  cases hf : (Woven.sections alnum xs).find? (fun s => s.2 == id) with
  | none => rfl
  | some s =>
    have h1 := List.mem_of_find?_eq_some hf
    rw [← sections_shown] at h1
    have hok := C68.titles_ok hn s h1
    show Rend.xrefLabel (renderElement L (n + 1)) pl [.str s.1.title] c = .ok (s.1.title.flatMap (Prose.char u), c)
    have h := C65.str_shows (L := L) (n := n) hu (C63.title_special hok)
    unfold Rend.xrefLabel
    refine (C62.bind_ok h).trans ?_
    show Except.ok (s.1.title.flatMap (Prose.char u) ++ [], c) = _
    rw [List.append_nil]

/-- The renderer is in the situation of the document. -/
theorem sees {L : Lib} {u : Bool} {alnum : Char → Bool} (h_ : alnum '_' = false) (hb : alnum ' ' = false) (fmt : Val → Text) {attrs : AMap Val}
    (h1 : AMap.get attrs "idprefix" = none) (h2 : AMap.get attrs "idseparator" = none) {depth : Int} {xs : List Item} (hn : C63.Neat alnum (shown alnum xs)) {c : Rend.Ctx}
    (hu : getBoolD c.attrs "unicode" true = u) (hr : c.refs = (docOf alnum depth xs).refs) :
    C65.Sees L (fixXref alnum fmt attrs (((shown alnum xs).filterMap refOf).reverse ++ [])) (Woven.view L.lower alnum u xs) c where
  unicode := hu
  lower := rfl
  target id := fixed h_ hb fmt h1 h2 xs id
  label n pl id := labelled hn hu hr n pl id

end C69
end Verif
