import Verif.Props.Ids
/-! C38: cross references by title and by id find the section. -/
namespace Verif.C38
open Verif.C14

/-- A reference by identifier (without blank) goes to the section with that identifier and shows its title. -/
theorem by_id (alnum : Char → Bool) (fmt : Val → Text) (attrs : CtxAttrs) (es : List Elem) (s : Sec)
    (hs : s ∈ sections (aggregateDoc alnum fmt attrs es)) (hid : s.id ≠ []) (ht : s.titled = true) (hb : ' ' ∉ s.id)
    (hc : ∀ e ∈ es, ¬ blockClaims s.id e) :
    resolveXref alnum fmt (aggregateDoc alnum fmt attrs es).attrs.all (.str s.id) = s.id ∧
    xrefLabel (aggregateDoc alnum fmt attrs es).refs s.id .none = .title (.sect s.title) := by
  refine ⟨?_, ?_⟩
  · unfold resolveXref
    dsimp only
    rw [if_neg (by simpa using hb)]
  · unfold xrefLabel
    rw [(found alnum fmt attrs es s hs hid ht).2 hc]

/-- A reference by title (of at least two words) goes to the section with that title and shows the title, if
the section has no explicit identifier, nobody else has claimed its identifier, and `idprefix` and `idseparator` are at the
end of the document what they are at the section. -/
theorem by_title (alnum : Char → Bool) (fmt : Val → Text) (attrs : CtxAttrs) (pre post : List Elem) (lvl : Int) (t : Text) (hb : ' ' ∈ t)
    (d d1 : AState) (hd : d = aggregateDoc alnum fmt attrs (pre ++ .sect ⟨lvl, [.str t], true, []⟩ :: post))
    (hd1 : d1 = aggregateDoc alnum fmt attrs pre)
    (hpre : getAsStringWithDefault fmt d.attrs.all "idprefix" ['_'] = getAsStringWithDefault fmt d1.attrs.all "idprefix" ['_'])
    (hsep : getAsStringWithDefault fmt d.attrs.all "idseparator" ['_'] = getAsStringWithDefault fmt d1.attrs.all "idseparator" ['_'])
    (id : Text) (hid : id = resolveXref alnum fmt d.attrs.all (.str t)) (hne : id ≠ [])
    (hfree : d1.refs.get id = none)
    (hc : ∀ e ∈ pre ++ post, ¬ blockClaims id e) :
    ⟨lvl, [.str t], true, id⟩ ∈ sections d ∧ xrefLabel d.refs id .none = .title (.sect [.str t]) := by
  have hbase : baseID alnum fmt d1.attrs.all ⟨lvl, [.str t], true, []⟩ = id := by
    rw [hid]
    unfold baseID resolveXref
    dsimp only
    rw [if_neg (by simp), if_pos (by simpa using hb), hpre, hsep]
  have hres : resolveID alnum fmt d1.attrs.all d1.refs ⟨lvl, [.str t], true, []⟩ = id := by
    obtain ⟨k, hk, e, _, hj⟩ := first_free alnum fmt d1.attrs.all d1.refs ⟨lvl, [.str t], true, []⟩
    rw [e, hbase]
    by_cases h1 : k = 1
    · rw [h1]; rfl
    · have := hj 1 (Nat.le_refl _) (by omega)
      rw [hbase] at this
      have hc1 : candidate id 1 = id := rfl
      rw [hc1, hfree] at this; cases this
  have hm := section_resolved alnum fmt attrs pre post ⟨lvl, [.str t], true, []⟩
  rw [← hd, ← hd1, hres] at hm
  refine ⟨hm, ?_⟩
  unfold xrefLabel
  have := (found alnum fmt attrs _ ⟨lvl, [.str t], true, id⟩ (hd ▸ hm) hne rfl).2 (by
    intro e he
    rcases List.mem_append.1 he with h | h
    · exact hc e (List.mem_append_left _ h)
    · rcases List.mem_cons.1 h with h | h
      · rw [h]; exact fun x => x
      · exact hc e (List.mem_append_right _ h))
  rw [← hd] at this
  rw [this]

/-- A plain text label is shown as given, whatever the target. -/
theorem label_given (refs : Refs) (id t : Text) : xrefLabel refs id (.str t) = .text t := rfl

/-- A reference to nothing shows the identifier in brackets. -/
theorem unknown_target (refs : Refs) (id : Text) (h : refs.get id = none) : xrefLabel refs id .none = .text ('[' :: id ++ [']']) := by
  unfold xrefLabel; rw [h]

/-! ### Non-vacuity and findings -/

def docFooBar : AState := aggregateDoc asciiAlnum (fun _ => []) (.new []) [sec "Intro".toList, sec "Foo bar".toList]

example : resolveXref asciiAlnum (fun _ => []) docFooBar.attrs.all (.str "Foo bar".toList) = "_Foo_bar".toList ∧
    (aggregateDoc asciiAlnum (fun _ => []) (.new []) [sec "Intro".toList]).refs.get "_Foo_bar".toList = none ∧
    xrefLabel docFooBar.refs "_Foo_bar".toList .none = .title (.sect [.str "Foo bar".toList]) := by
  refine ⟨by decide, by rfl, by rfl⟩

/-- Finding (types.go:1902-1914): a title of one word is taken for an identifier, so `<<Intro>>` does not find the section
`Intro`. -/
theorem finding_one_word_title_not_found :
    resolveXref asciiAlnum (fun _ => []) docFooBar.attrs.all (.str "Intro".toList) = "Intro".toList ∧
    (sections docFooBar).map Sec.id = ["_Intro".toList, "_Foo_bar".toList] ∧
    xrefLabel docFooBar.refs "Intro".toList .none = .text "[Intro]".toList := by
  refine ⟨by decide, by decide, by rfl⟩

/-- Finding (document_processing_aggregate.go:96-102): references are resolved with the attributes at the end of the
document, sections with those where they occur; a later `:idprefix:` breaks earlier references. -/
theorem finding_attributes_at_end_of_document :
    ∃ es, let d := aggregateDoc asciiAlnum (fun _ => []) (.new []) es
      (sections d).map Sec.id = ["_Foo_bar".toList] ∧
      resolveXref asciiAlnum (fun _ => []) d.attrs.all (.str "Foo bar".toList) = "xFoo_bar".toList := by
  refine ⟨[sec "Foo bar".toList, .decl "idprefix" (.str "x".toList)], by decide, by decide⟩

/-- Finding (pkg/renderer/sgml/cross_reference.go:23-24): a label that is not a plain string is ignored. -/
theorem finding_formatted_label_ignored (refs : Refs) (id : Text) (es : List TElem) : xrefLabel refs id (.elems es) = xrefLabel refs id .none := rfl

end Verif.C38
