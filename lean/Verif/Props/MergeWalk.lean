import Verif.Props.Merge
import Verif.Model.Substitute
/-!
C21 for the values of the substitution stage and of the parser (`Walk.Any`): `merge` there is the `merge` of Model/Merge, so that the theorems
of Props/Merge apply to it.
-/
namespace Verif.C21
open Verif.Merge
open Walk (Any)

mutual
/-- A value as one of Model/Merge, where `f` numbers the elements that are neither text nor a dash. -/
def view (f : Any → Nat) : Any → MEl
  | .nil => .nil
  | .text t => .raw t
  | .str t => .elem t
  | .dash => .dash
  | .slice es => .slice (views f es)
  | e => .other (f e)
/-- The same for all values. -/
def views (f : Any → Nat) : List Any → List MEl
  | [] => []
  | e :: es => view f e :: views f es
end

theorem views_append (f : Any → Nat) : ∀ a b : List Any, views f (a ++ b) = views f a ++ views f b
  | [], b => rfl
  | e :: a, b => by show view f e :: views f (a ++ b) = _; rw [views_append f a b]; rfl

theorem views_flush (f : Any → Nat) (buf : Text) : views f (Walk.flush buf) = flush buf := by
  unfold Walk.flush flush; split <;> rfl

theorem views_flushDash (f : Any → Nat) (buf : Text) : views f (Walk.flushDash buf) = flushDash buf := by
  unfold Walk.flushDash flushDash; split <;> rfl

/-- A slice. -/
def isSlice : Any → Bool
  | .slice _ => true
  | _ => false

theorem view_flatLoop (f : Any → Nat) : ∀ (es res : List Any) (buf : Text), (∀ e ∈ es, isSlice e = false) →
    views f (Walk.flatLoop res buf es) = flatLoop (views f res) buf (views f es)
  | [], res, buf, _ => by show views f (res ++ Walk.flush buf) = _; rw [views_append, views_flush]; rfl
  | e :: es, res, buf, h => by
    have ih := fun res buf => view_flatLoop f es res buf (fun x hx => h x (List.mem_cons_of_mem _ hx))
    have he := h e List.mem_cons_self
    have key : ∀ n, view f e = .other n → Walk.flatLoop res buf (e :: es) = Walk.flatLoop (res ++ Walk.flush buf ++ [e]) [] es →
        views f (Walk.flatLoop res buf (e :: es)) = flatLoop (views f res) buf (views f (e :: es)) := by
      intro n hn hl
      rw [hl, ih, views_append, views_append, views_flush]
      show _ = flatLoop (views f res) buf (view f e :: views f es)
      show flatLoop (views f res ++ flush buf ++ [view f e]) [] (views f es) = _
      rw [hn]; rfl
    cases e with
    | nil => exact ih res buf
    | text t => exact ih res (buf ++ t)
    | str t => exact ih res (buf ++ t)
    | dash =>
      show views f (Walk.flatLoop (res ++ Walk.flushDash buf ++ [.dash]) [] es) = _
      rw [ih, views_append, views_append, views_flushDash]; rfl
    | slice s => cases he
    | _ => exact key _ rfl rfl

theorem flatLoop_noSlice : ∀ (es res : List Any) (buf : Text), (∀ e ∈ es, isSlice e = false) → (∀ e ∈ res, isSlice e = false) →
    ∀ e ∈ Walk.flatLoop res buf es, isSlice e = false
  | [], res, buf, _, hr => by
    intro e he
    rcases List.mem_append.1 he with h | h
    · exact hr e h
    · unfold Walk.flush at h; split at h
      · cases h
      · rw [List.mem_singleton.1 h]; rfl
  | e :: es, res, buf, h, hr => by
    have hf : ∀ x ∈ res ++ Walk.flush buf, isSlice x = false := by
      intro x hx
      rcases List.mem_append.1 hx with hx | hx
      · exact hr x hx
      · unfold Walk.flush at hx; split at hx
        · cases hx
        · rw [List.mem_singleton.1 hx]; rfl
    have hd : ∀ x ∈ res ++ Walk.flushDash buf, isSlice x = false := by
      intro x hx
      rcases List.mem_append.1 hx with hx | hx
      · exact hr x hx
      · unfold Walk.flushDash at hx; split at hx
        · cases hx
        · rw [List.mem_singleton.1 hx]; rfl
    have he := h e List.mem_cons_self
    have hs := fun x hx => h x (List.mem_cons_of_mem _ hx)
    have key : ∀ l, (∀ x ∈ l, isSlice x = false) → ∀ x ∈ l ++ [e], isSlice x = false := by
      intro l hl x hx
      rcases List.mem_append.1 hx with hx | hx
      · exact hl x hx
      · rw [List.mem_singleton.1 hx]; exact he
    cases e with
    | nil => exact flatLoop_noSlice es res buf hs hr
    | text t => exact flatLoop_noSlice es res _ hs hr
    | str t => exact flatLoop_noSlice es res _ hs hr
    | dash => exact flatLoop_noSlice es _ [] hs (key _ hd)
    | slice s => cases he
    | _ => exact flatLoop_noSlice es _ [] hs (key _ hf)

/-- The loop on elements of which the slices are merged, against the loop that merges them. -/
theorem loop_noSlice : ∀ (es res : List Any) (buf : Text), (∀ s, .slice s ∈ es → ∀ e ∈ s, isSlice e = false) → (∀ e ∈ res, isSlice e = false) →
    ∀ e ∈ Walk.mergeLoop res buf es, isSlice e = false
  | [], res, buf, _, hr => flatLoop_noSlice [] res buf (fun _ h => nomatch h) hr
  | e :: es, res, buf, h, hr => by
    have hf : ∀ x ∈ res ++ Walk.flush buf, isSlice x = false := by
      intro x hx
      rcases List.mem_append.1 hx with hx | hx
      · exact hr x hx
      · unfold Walk.flush at hx; split at hx
        · cases hx
        · rw [List.mem_singleton.1 hx]; rfl
    have hd : ∀ x ∈ res ++ Walk.flushDash buf, isSlice x = false := by
      intro x hx
      rcases List.mem_append.1 hx with hx | hx
      · exact hr x hx
      · unfold Walk.flushDash at hx; split at hx
        · cases hx
        · rw [List.mem_singleton.1 hx]; rfl
    have hs := fun s hx => h s (List.mem_cons_of_mem _ hx)
    have key : ∀ l, isSlice e = false → (∀ x ∈ l, isSlice x = false) → ∀ x ∈ l ++ [e], isSlice x = false := by
      intro l he hl x hx
      rcases List.mem_append.1 hx with hx | hx
      · exact hl x hx
      · rw [List.mem_singleton.1 hx]; exact he
    cases e with
    | nil => exact loop_noSlice es res buf hs hr
    | text t => exact loop_noSlice es res _ hs hr
    | str t => exact loop_noSlice es res _ hs hr
    | dash => exact loop_noSlice es _ [] hs (key _ rfl hd)
    | slice s =>
      refine loop_noSlice es _ [] hs (flatLoop_noSlice _ [] [] ?_ (fun _ h => nomatch h))
      intro x hx
      rcases List.mem_append.1 hx with hx | hx
      · exact hf x hx
      · exact h s List.mem_cons_self x hx
    | _ => exact loop_noSlice es _ [] hs (key _ rfl hf)

mutual
theorem inner_slices : ∀ e s, Walk.inner e = .slice s → ∀ x ∈ s, isSlice x = false
  | .slice [], s, h => by cases h
  | .slice (e :: es), s, h => by
    have h : Any.slice (Walk.mergeLoop [] [] (Walk.inner e :: Walk.inners es)) = .slice s := h
    injection h with h
    rw [← h]
    refine loop_noSlice _ [] [] ?_ (fun _ h => nomatch h)
    intro u hu
    rcases List.mem_cons.1 hu with hu | hu
    · exact inner_slices e u hu.symm
    · exact inners_slices es u hu
  | .nil, _, h | .text _, _, h | .plain _, _, h | .fullName _ _ _, _, h | .roles _, _, h | .options _, _, h | .ref _, _, h
  | .counter _ _ _, _, h | .str _, _, h | .raw _, _, h | .special _, _, h | .dash, _, h | .holder _, _, h | .anchor _, _, h
  | .column _, _, h | .leaf _, _, h | .closed _ _, _, h | .passthrough _, _, h | .located _ _ _, _, h | .group _ _ _, _, h
  | .paragraph _ _, _, h | .block _ _ _, _, h | .labeled _ _ _ _, _, h | .continuation _ _, _, h | .cell _ _, _, h
  | .table _ _ _ _, _, h | .section _ _ _, _, h | .header _ _ _, _, h | .declare _ _, _, h | .reset _, _, h | .authors _, _, h
  | .revision _ _ _, _, h | .frontMatter _, _, h => by cases h
theorem inners_slices : ∀ es s, .slice s ∈ Walk.inners es → ∀ x ∈ s, isSlice x = false
  | [], s, h => by cases h
  | e :: es, s, h => by
    rcases List.mem_cons.1 h with h | h
    · exact inner_slices e s h.symm
    · exact inners_slices es s h
end

/-- One step of the loop with slices that are merged already. -/
theorem view_step (f : Any → Nat) (e : Any) (hm : ∀ s, Walk.inner e = .slice s → ∃ s', view f e = .slice s' ∧ s'.isEmpty = false ∧
    views f s = loop [] [] s') (hns : ∀ s, Walk.inner e = .slice s → ∀ x ∈ s, isSlice x = false) (es : List Any)
    (ih : ∀ (res : List Any) (buf : Text), (∀ e ∈ res, isSlice e = false) →
      views f (Walk.mergeLoop res buf (Walk.inners es)) = loop (views f res) buf (views f es)) (res : List Any) (buf : Text)
    (hr : ∀ e ∈ res, isSlice e = false) :
    views f (Walk.mergeLoop res buf (Walk.inner e :: Walk.inners es)) = loop (views f res) buf (view f e :: views f es) := by
  have hf : ∀ x ∈ res ++ Walk.flush buf, isSlice x = false := by
    intro x hx
    rcases List.mem_append.1 hx with hx | hx
    · exact hr x hx
    · unfold Walk.flush at hx; split at hx
      · cases hx
      · rw [List.mem_singleton.1 hx]; rfl
  have hd : ∀ x ∈ res ++ Walk.flushDash buf, isSlice x = false := by
    intro x hx
    rcases List.mem_append.1 hx with hx | hx
    · exact hr x hx
    · unfold Walk.flushDash at hx; split at hx
      · cases hx
      · rw [List.mem_singleton.1 hx]; rfl
  have add : ∀ l, isSlice e = false → (∀ x ∈ l, isSlice x = false) → ∀ x ∈ l ++ [e], isSlice x = false := by
    intro l he hl x hx
    rcases List.mem_append.1 hx with hx | hx
    · exact hl x hx
    · rw [List.mem_singleton.1 hx]; exact he
  have key : ∀ n, view f e = .other n → isSlice e = false →
      Walk.mergeLoop res buf (Walk.inner e :: Walk.inners es) = Walk.mergeLoop (res ++ Walk.flush buf ++ [e]) [] (Walk.inners es) →
      views f (Walk.mergeLoop res buf (Walk.inner e :: Walk.inners es)) = loop (views f res) buf (view f e :: views f es) := by
    intro n hn he hl
    rw [hl, ih _ _ (add _ he hf), views_append, views_append, views_flush]
    show loop (views f res ++ flush buf ++ [view f e]) [] (views f es) = _
    rw [hn]; conv => rhs; rw [loop]
  cases e with
  | nil => show _ = loop _ _ (.nil :: _); rw [loop]; exact ih res buf hr
  | text t => show _ = loop _ _ (.raw t :: _); rw [loop]; exact ih res (buf ++ t) hr
  | str t => show _ = loop _ _ (.elem t :: _); rw [loop]; exact ih res (buf ++ t) hr
  | dash =>
    show views f (Walk.mergeLoop (res ++ Walk.flushDash buf ++ [.dash]) [] (Walk.inners es)) = _
    rw [ih _ _ (add _ rfl hd), views_append, views_append, views_flushDash]
    show _ = loop _ _ (.dash :: _)
    conv => rhs; rw [loop]
    rfl
  | slice s =>
    cases s with
    | nil => show _ = loop _ _ (.slice [] :: _); rw [loop]; exact ih res buf hr
    | cons x s =>
      obtain ⟨s', h1, h2, h3⟩ := hm _ rfl
      have hn := hns _ rfl
      have hall : ∀ y ∈ res ++ Walk.flush buf ++ Walk.mergeLoop [] [] (Walk.inner x :: Walk.inners s), isSlice y = false := by
        intro y hy
        rcases List.mem_append.1 hy with hy | hy
        · exact hf y hy
        · exact hn y hy
      show views f (Walk.mergeLoop (Walk.flatLoop [] [] (res ++ Walk.flush buf ++ Walk.mergeLoop [] [] (Walk.inner x :: Walk.inners s))) []
        (Walk.inners es)) = _
      rw [ih _ _ (flatLoop_noSlice _ [] [] hall (fun _ h => nomatch h)), view_flatLoop f _ [] [] hall, views_append, views_append,
        views_flush, h3, h1]
      conv => rhs; rw [loop]
      rw [h2]; rfl
  | _ => exact key _ rfl rfl rfl

mutual
theorem view_inner (f : Any → Nat) : ∀ e s, Walk.inner e = .slice s → ∃ s', view f e = .slice s' ∧ s'.isEmpty = false ∧
    views f s = loop [] [] s'
  | .slice [], s, h => by cases h
  | .slice (e :: es), s, h => by
    have h : Any.slice (Walk.mergeLoop [] [] (Walk.inner e :: Walk.inners es)) = .slice s := h
    injection h with h
    refine ⟨view f e :: views f es, rfl, rfl, ?_⟩
    rw [← h]
    exact view_step f e (view_inner f e) (inner_slices e) es (view_inners f es) [] [] (fun _ h => nomatch h)
  | .nil, _, h | .text _, _, h | .plain _, _, h | .fullName _ _ _, _, h | .roles _, _, h | .options _, _, h | .ref _, _, h
  | .counter _ _ _, _, h | .str _, _, h | .raw _, _, h | .special _, _, h | .dash, _, h | .holder _, _, h | .anchor _, _, h
  | .column _, _, h | .leaf _, _, h | .closed _ _, _, h | .passthrough _, _, h | .located _ _ _, _, h | .group _ _ _, _, h
  | .paragraph _ _, _, h | .block _ _ _, _, h | .labeled _ _ _ _, _, h | .continuation _ _, _, h | .cell _ _, _, h
  | .table _ _ _ _, _, h | .section _ _ _, _, h | .header _ _ _, _, h | .declare _ _, _, h | .reset _, _, h | .authors _, _, h
  | .revision _ _ _, _, h | .frontMatter _, _, h => by cases h
theorem view_inners (f : Any → Nat) : ∀ (es res : List Any) (buf : Text), (∀ e ∈ res, isSlice e = false) →
    views f (Walk.mergeLoop res buf (Walk.inners es)) = loop (views f res) buf (views f es)
  | [], res, buf, _ => by show views f (res ++ Walk.flush buf) = _; rw [views_append, views_flush]; show _ = loop _ _ []; rw [loop]
  | e :: es, res, buf, hr => view_step f e (view_inner f e) (inner_slices e) es (view_inners f es) res buf hr
end

/-- `merge` on the values of the substitution stage is `merge` of Model/Merge. -/
theorem merge_same (f : Any → Nat) (es : List Any) : views f (Walk.merge es) = merge (views f es) :=
  view_inners f es [] [] (fun _ h => nomatch h)

/-- **C21** for these values: no text is lost, added or moved, and no element, unless there is a dash. -/
theorem merged_any (f : Any → Nat) (es : List Any) (h : .dash ∉ unitsAll (views f es)) :
    unitsAll (views f (Walk.merge es)) = unitsAll (views f es) := by
  rw [merge_same]; exact merged_content_exact _ h

/-- With dashes: only spaces before them. -/
theorem merged_any_dash (f : Any → Nat) (es : List Any) : squeeze (unitsAll (views f (Walk.merge es))) = squeeze (unitsAll (views f es)) := by
  rw [merge_same]; exact merged_content _

example : Walk.merge [.text "a ".toList, .slice [.nil], .str "b".toList, .dash, .slice [.slice [.ref "x", .text "c".toList], .text "d".toList]] =
    [.str "a b".toList, .dash, .ref "x", .str "cd".toList] := by
  simp [Walk.merge, Walk.mergeLoop, Walk.inners, Walk.inner, Walk.flatLoop, Walk.flush, Walk.flushDash, Merge.trimOne]

end Verif.C21
