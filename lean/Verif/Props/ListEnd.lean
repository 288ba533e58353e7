import Verif.Props.ListFragment

/-!
# C64, continued — What ends a list
-/
namespace Verif
namespace C64
open Peg Grammar Actions FragmentLoop Listed
open C59 (Code Cut alnum)
open C62 (fence_cons fence_inline)
open Composed (fence)
open Paragraphs (Line)
open Walk (Any)

variable {σ : Type} {S : Sem σ} {A : Peg.Code σ} {t r u x z : Text}

/-- The characters of delimiters. -/
def fences : List Char := ['=', '`', '-', '.', '+', '_', '*']

theorem fence_char {c : Char} (h : c ∈ fences) : isBlank c = false ∧ isEol c = false ∧ c ≠ '\uFFFD' ∧ c ≠ '<' ∧ c ≠ ':' := by
  revert h
  simp only [fences, List.mem_cons, List.not_mem_nil, or_false]
  rintro (rfl | rfl | rfl | rfl | rfl | rfl | rfl) <;> decide

theorem fence_drop {c : Char} (h : c ∈ fences) {n : Nat} (hn : 1 ≤ n) {w : Text} : (fence c n w ++ x).dropWhile isBlank = fence c n w ++ x := by
  obtain ⟨y, hy⟩ := fence_cons (c := c) (w := w) (x := x) hn
  rw [hy, List.dropWhile_cons_of_neg (by rw [(fence_char h).1]; decide)]

theorem fence_solid {c : Char} (h : c ∈ fences) {n : Nat} (hn : 1 ≤ n) {w : Text} : Solid (fence c n w ++ x) := by
  obtain ⟨y, hy⟩ := fence_cons (c := c) (w := w) (x := x) hn
  refine .inr ⟨c, y, ?_, (fence_char h).2.1⟩
  rw [fence_drop h hn, hy]

/-- A delimiter is not an item: nothing follows what could be a mark. -/
theorem fence_noItem {c : Char} (h : c ∈ fences) {n : Nat} (hn : 1 ≤ n) {w : Text} (hw : ∀ d ∈ w, isBlank d = true) : NoItem (fence c n w ++ '\n' :: x) where
  mark u hu := by
    obtain ⟨m, b, y, hm, hb, e, rfl⟩ := hu
    rw [fence_drop h hn] at e
    have hp : m.text ++ [b] <+: fence c n w := by
      refine C59.prefix_line (.line (r := x)) ?_ ⟨y, by rw [e]; simp⟩
      intro d hd
      rcases List.mem_append.mp hd with hd | hd
      · exact mark_inline hm d hd
      · rw [List.mem_singleton.mp hd]; exact C62.blank_inline hb
    obtain ⟨y0, e0⟩ := hp
    have hy : y = y0 ++ '\n' :: x := by
      rw [← e0] at e
      simpa using e.symm
    have hbl : ∀ d ∈ y0, isBlank d = true := by
      have e1 : m.text ++ (b :: y0) = List.replicate n c ++ w := by rw [← show fence c n w = List.replicate n c ++ w from rfl, ← e0]; simp
      rcases List.append_eq_append_iff.mp e1 with ⟨a, h1, h2⟩ | ⟨a, h1, h2⟩
      · cases a with
        | nil =>
          rw [List.nil_append] at h2
          intro d hd
          exact hw d (h2 ▸ List.mem_cons_of_mem _ hd)
        | cons a0 a =>
          injection h2 with h2 _
          have : a0 ∈ List.replicate n c := by rw [h1]; simp
          rw [h2, (List.mem_replicate.mp this).2, (fence_char h).1] at hb
          cases hb
      · intro d hd
        exact hw d (h2 ▸ List.mem_append_right _ (List.mem_cons_of_mem _ hd))
    rw [hy, List.dropWhile_append_of_pos hbl]
    intro d hd
    cases hd
    rfl
  callout := by
    obtain ⟨y, hy⟩ := fence_cons (c := c) (w := w) (x := '\n' :: x) hn
    rw [hy]
    intro e
    exact (fence_char h).2.2.2.1 (Option.some.inj e)
  label := by
    refine ⟨fence c n w, _, x, rfl, .line, fence_inline (fence_char h).2.1 hw, ?_⟩
    intro hi
    have : ':' ∈ fence c n w := hi.subset List.mem_cons_self
    rcases List.mem_append.mp this with hm | hm
    · exact (fence_char h).2.2.2.2 (List.mem_replicate.mp hm).2.symm
    · have := hw _ hm; cases this

theorem plus_fail : runO grammar (fun _ _ => none) 80 (.rule R.ListContinuationMarker) ['+', '+'] ['+', '+'] = some [.fail] := by decide +kernel
theorem dots_fail : runO grammar (fun _ _ => none) 80 (.rule R.BlockAttributes) ['.', '.'] ['.', '.'] = some [.fail] := by decide +kernel

theorem fence_marker (hS : Code S) {c : Char} {n : Nat} (hn : 2 ≤ n) {w : Text} : Never grammar S (.rule R.ListContinuationMarker) (fence c n w ++ x) := by
  obtain ⟨m, rfl⟩ := Nat.exists_eq_add_of_le' hn
  rw [show fence c (m + 2) w ++ x = [c, c] ++ (fence c m w ++ x) from rfl]
  by_cases hc : c = '+'
  · subst hc
    exact never_of_prefix (C62.follows hS) _ plus_fail
  · exact starts_never (F := ['+']) (by simpa using hc) 24 _ (by decide)

theorem fence_attributes (hS : Code S) {c : Char} (h : c ∈ fences) {n : Nat} (hn : 2 ≤ n) {w : Text} : Never grammar S (.rule R.BlockAttributes) (fence c n w ++ x) := by
  obtain ⟨m, rfl⟩ := Nat.exists_eq_add_of_le' hn
  rw [show fence c (m + 2) w ++ x = [c, c] ++ (fence c m w ++ x) from rfl]
  by_cases hc : c = '.'
  · subst hc
    exact never_of_prefix (C62.follows hS) _ dots_fail
  · refine starts_never (F := ['[', '.']) ?_ 24 _ (by decide)
    revert h
    simp only [fences, List.mem_cons, List.not_mem_nil, or_false]
    rintro (rfl | rfl | rfl | rfl | rfl | rfl | rfl) <;> first | decide | exact absurd rfl hc

/-- A delimited block ends a list, unless it is an open block. -/
theorem fence_ends (hS : Code S) (hC : ListCode S) {c : Char} {k n : Nat} {w x : Text} (hm : (c, k) ∈ [('=', 4), ('`', 3), ('-', 4), ('.', 4), ('+', 4), ('_', 4), ('*', 4)])
    (hk : k ≤ n) (hw : ∀ x ∈ w, isBlank x = true) : Never grammar S (.rule R.ExtraListElement) (fence c n w ++ '\n' :: x) := by
  have hc : c ∈ fences ∧ 2 ≤ n := by
    revert hm
    simp only [fences, List.mem_cons, Prod.mk.injEq, List.not_mem_nil, or_false]
    rintro (⟨rfl, rfl⟩ | ⟨rfl, rfl⟩ | ⟨rfl, rfl⟩ | ⟨rfl, rfl⟩ | ⟨rfl, rfl⟩ | ⟨rfl, rfl⟩ | ⟨rfl, rfl⟩) <;> exact ⟨by decide, by omega⟩
  have h1 : 1 ≤ n := by omega
  obtain ⟨n1, n2, n3⟩ := never_before hC (fence_solid hc.1 h1) (fence_noItem (x := x) hc.1 h1 hw) (fence_marker hS hc.2) (fence_attributes hS hc.1 hc.2)
  have hsure := C62.sure_delimiter (x := x) hS hm hk hw
  obtain ⟨y, hy⟩ := fence_cons (c := c) (w := w) (x := '\n' :: x) h1
  rw [hy] at n1 n2 n3 hsure ⊢
  have hslash : c ∉ ['/'] := by
    have := hc.1
    revert this
    simp only [fences, List.mem_cons, List.not_mem_nil, or_false]
    rintro (rfl | rfl | rfl | rfl | rfl | rfl | rfl) <;> decide
  refine yields_rule ?_
  rw [extra_rule]
  have keep : ∀ {a b : Exp} {t : Text}, Never grammar S b t → Never grammar S (.seq (.notP a) b) t := fun h => C49.never_after (fun _ _ _ _ h => C49.notP_stays h) h
  exact yields_act (yields_scope (yields_seq yields_NotEOF (yields_alt_right n1 (yields_alt_right n2 (yields_alt_right n3 (yields_alt_right (starts_never hslash 24 _ (by decide))
    (yields_rule (yields_act (yields_scope (keep (keep (keep (keep (keep (keep (never_seq (never_notP hsure)))))))))))))))))

/-- A title without colons is not an item. -/
theorem equals_noItem (hz : Cut z r) {l : Text} (h1 : ∀ c ∈ l, isEol c = false) (h2 : ¬ [':', ':'] <:+: l) (h3 : l.head? = some '=') : NoItem (l ++ z) ∧ Solid (l ++ z) := by
  obtain ⟨y, rfl⟩ : ∃ y, l = '=' :: y := by
    cases l with
    | nil => cases h3
    | cons c y => cases h3; exact ⟨y, rfl⟩
  have hd : ('=' :: y ++ z).dropWhile isBlank = '=' :: y ++ z := List.dropWhile_cons_of_neg (by decide)
  refine ⟨⟨fun u hu => ?_, by simp, '=' :: y, z, r, rfl, hz, h1, h2⟩, .inr ⟨'=', y ++ z, hd, by decide⟩⟩
  obtain ⟨m, b, y', hm, hb, e, _⟩ := hu
  rw [hd] at e
  exfalso
  have hh : ∃ q, m.text ++ b :: y' = '=' :: q := ⟨_, e.symm⟩
  obtain ⟨q, hq⟩ := hh
  cases m with
  | dash => cases hq
  | stars n => obtain ⟨k, rfl⟩ := Nat.exists_eq_add_of_le' hm.1; cases hq
  | dots n => obtain ⟨k, rfl⟩ := Nat.exists_eq_add_of_le' hm.1; cases hq
  | number ds =>
    cases ds with
    | nil => exact hm.1 rfl
    | cons d ds => cases hq; exact absurd (hm.2 '=' List.mem_cons_self) (by decide)
  | letter c => cases hq; exact absurd (show 'a' ≤ '=' ∧ '=' ≤ 'z' from hm) (by decide)
  | capital c => cases hq; exact absurd (show 'A' ≤ '=' ∧ '=' ≤ 'Z' from hm) (by decide)
  | roman ds =>
    cases ds with
    | nil => exact hm.1 rfl
    | cons d ds => cases hq; exact absurd (hm.2 '=' List.mem_cons_self) (by decide)
  | capRoman ds =>
    cases ds with
    | nil => exact hm.1 rfl
    | cons d ds => cases hq; exact absurd (hm.2 '=' List.mem_cons_self) (by decide)

end C64
end Verif
