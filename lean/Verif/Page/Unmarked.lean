import Verif.Show.Alike
import Verif.Html.LookTree
import Verif.Page.DiffProps
/-!
# C106: the page of a file compared with itself
-/
namespace Verif.Page
open Verif.Print Verif.Html Verif.Item Verif.Types Verif.Opts Verif.Show Verif.Order Verif.Filter Verif.Web Verif.Merge Verif.Range

variable {same : Val → Val → Bool} {alnum : Nat → Bool}

mutual
/-- No line of the item is marked as deleted or added. -/
def NodeUnmarked : Node → Prop
  | .item lines kids => (∀ x ∈ lines, x.mark = .same) ∧ KidsUnmarked kids
/-- No line of the items in an item is marked. -/
def KidsUnmarked : Option (List Node) → Prop
  | none => True
  | some ns => Unmarked ns
/-- No line of the items is marked. -/
def Unmarked : List Node → Prop
  | [] => True
  | n :: ns => NodeUnmarked n ∧ Unmarked ns
end

theorem unmarked_append : ∀ {ns ms : List Node}, Unmarked (ns ++ ms) ↔ Unmarked ns ∧ Unmarked ms
  | [], ms => by simp [Unmarked]
  | n :: ns, ms => by simp only [List.cons_append, Unmarked, unmarked_append (ns := ns), and_assoc]

theorem unmarked_leaves {gs : List (List Shown)} (h : ∀ g ∈ gs, ∀ x ∈ g, x.mark = Mark.same) : Unmarked (leaves gs) := by
  induction gs with
  | nil => trivial
  | cons g gs ih => exact ⟨⟨h g (List.mem_cons_self ..), trivial⟩, ih fun g' hg => h g' (List.mem_cons_of_mem _ hg)⟩

theorem lineGroup_refl (hs : ∀ a, same a a = true) (l : Str) (a : Val) : ∀ g ∈ lineGroup same l a a, ∀ x ∈ g, x.mark = Mark.same := by
  intro g hg x hx
  rw [lineGroup, if_pos (hs a)] at hg
  split at hg
  · cases hg
  · obtain rfl := List.mem_singleton.1 hg
    obtain rfl := List.mem_singleton.1 hx
    rfl

theorem headsD_alike (hs : ∀ a, same a a = true) : ∀ {e : D}, e.Alike → ∀ g ∈ headsD same e, ∀ x ∈ g, x.mark = Mark.same
  | .seq p q, h, g, hg => by
    rcases List.mem_append.1 hg with hg | hg
    · exact headsD_alike hs h.1 g hg
    · exact headsD_alike hs h.2 g hg
  | .label l, _, g, hg => by
    intro x hx
    obtain rfl := List.mem_singleton.1 hg
    obtain rfl := List.mem_singleton.1 hx
    rfl
  | .line l a b, h, g, hg => by
    obtain rfl : a = b := h
    exact lineGroup_refl hs l a g hg
  | .printIfDiff e, h, g, hg => headsD_alike hs (e := e) h g hg
  | .ignoreDiff _ e, h, g, hg => headsD_alike hs (e := e) h g hg
  | .skip, _, _, hg | .lineBreak, _, _, hg | .indent .., _, _, hg | .field .., _, _, hg | .id .., _, _, hg | .inline _, _, _, hg
  | .prefixDelete _, _, _, hg | .prefixAdd _, _, _, hg | .block .., _, _, hg => by cases hg

theorem pageD_alike (hs : ∀ a, same a a = true) (http : Bool) : ∀ {e : D}, e.Alike → ∀ d, Unmarked (pageD same http e d)
  | .seq p q, h, d => unmarked_append.2 ⟨pageD_alike hs http h.1 d, pageD_alike hs http h.2 d⟩
  | .label l, _, d => unmarked_leaves (headsD_alike hs (e := .label l) trivial)
  | .line l a b, h, d => unmarked_leaves (headsD_alike hs (e := .line l a b) h)
  | .indent _ x b, h, d => by
    simp only [pageD, section_]
    split
    · exact unmarked_leaves (headsD_alike hs h.1)
    · refine ⟨⟨fun y hy => ?_, pageD_alike hs http h.2 d⟩, trivial⟩
      obtain ⟨g, hg, hy⟩ := List.mem_flatten.1 hy
      exact headsD_alike hs h.1 g hg y hy
  | .field _ l b, h, d => by
    simp only [pageD, optSection]
    split
    · trivial
    · exact ⟨⟨by simp, pageD_alike hs http (e := b) h d⟩, trivial⟩
  | .id _ x b, h, d => by
    refine ⟨⟨fun y hy => ?_, ?_⟩, trivial⟩
    · obtain ⟨g, hg, hy⟩ := List.mem_flatten.1 hy
      exact headsD_alike hs h.1 g hg y hy
    · show Unmarked (if http then [] else pageD same http b d)
      split
      · trivial
      · exact pageD_alike hs http h.2 d
  | .inline e, h, d => by
    simp only [pageD]
    split
    · trivial
    · exact pageD_alike hs http (e := e) h _
  | .printIfDiff e, h, d => pageD_alike hs http (e := e) h d
  | .ignoreDiff _ e, h, d => pageD_alike hs http (e := e) h d
  | .block a b, h, d => by
    obtain ⟨rfl, rfl⟩ : a = .skip ∧ b = .skip := h
    trivial
  | .skip, _, _ | .lineBreak, _, _ => trivial

mutual
theorem node_sights : ∀ {n : Node}, NodeUnmarked n → ∀ {m x}, Sight.line m x ∈ n.sights alnum → m = .same
  | .item ls kids, h, m, x, hx => by
    simp only [Node.sights, List.cons_append, List.mem_cons, List.mem_append, List.mem_map, reduceCtorEq, false_or,
      List.not_mem_nil, or_false] at hx
    rcases hx with ⟨y, hy, e⟩ | hx
    · cases e; exact h.1 y hy
    · exact kids_sights h.2 hx
theorem kids_sights : ∀ {kids : Option (List Node)}, KidsUnmarked kids → ∀ {m x}, Sight.line m x ∈ kidsSights alnum kids → m = .same
  | none, _, _, _, hx => by cases hx
  | some ns, h, m, x, hx => by
    simp only [kidsSights, List.cons_append, List.mem_cons, List.mem_append, reduceCtorEq, false_or, List.not_mem_nil, or_false] at hx
    exact nodes_sights h hx
theorem nodes_sights : ∀ {ns : List Node}, Unmarked ns → ∀ {m x}, Sight.line m x ∈ sights alnum ns → m = .same
  | [], _, _, _, hx => by cases hx
  | n :: ns, h, m, x, hx => by
    rcases List.mem_append.1 hx with hx | hx
    · exact node_sights h.1 hx
    · exact nodes_sights h.2 hx
end

/-- **C106** (a file and itself). The page of a file compared with itself has no mark: whoever reads it, tag by tag, sees no line
that is marked as deleted or added. -/
theorem C106_self (t : EntityTable) (alnum : Nat → Bool) (fr : Frame) (o : Options) (s : FileSide) (same : Ty → Ty → Bool)
    (heap : Path.Heap) (n : Nat) (hhttp : o.http = false) (hhtml : o.html = true) (hins : o.printFunctionInstructions = false)
    (hs : ∀ o t, fromOffset s.hash o = some t → same t t = true) (page : Str)
    (h : diffPage t alnum fr o ⟨s, s, same, heap⟩ n = some page) :
    ∃ items, page = fr.header ++ items ++ fr.footer ∧ ∀ m x, Sight.line m x ∈ look t items → m = .same := by
  simp only [diffPage, Option.map_eq_some_iff] at h
  obtain ⟨e, he, rfl⟩ := h
  have := (C82_diff_reads t alnum o hhtml hins ⟨s, s, same, heap⟩ n e he).2
  refine ⟨_, rfl, fun m x hx => ?_⟩
  have hr : Html.Reads t alnum (freshD t alnum o e) _ := this
  rw [C80_look hr] at hx
  exact nodes_sights (pageD_alike (by simp) _ (fileD_alike hs hins he) _) hx

end Verif.Page
