import Verif.Html.LookProps
/-!
# What is to be seen determines the items
-/
namespace Verif.Html
open Verif.Print

/-- An item as it is seen: the marks and texts of its lines, and the items in it. -/
inductive Tree
  | item (lines : List (Mark × Str)) (kids : Option (List Tree))

mutual
/-- The item as it is seen. -/
def Node.tree (alnum : Nat → Bool) : Node → Tree
  | .item lines kids => .item (lines.map fun x => (x.mark, lineText alnum x)) (kidsTrees alnum kids)
/-- The items in an item as they are seen. -/
def kidsTrees (alnum : Nat → Bool) : Option (List Node) → Option (List Tree)
  | none => none
  | some ns => some (trees alnum ns)
/-- The items as they are seen. -/
def trees (alnum : Nat → Bool) : List Node → List Tree
  | [] => []
  | n :: ns => n.tree alnum :: trees alnum ns
end

variable {alnum : Nat → Bool}

theorem lines_inj : ∀ {ls ls' : List Shown} {k k' : List Sight}, (∀ m x, k.head? ≠ some (.line m x)) → (∀ m x, k'.head? ≠ some (.line m x)) →
    ls.map (fun x => Sight.line x.mark (lineText alnum x)) ++ k = ls'.map (fun x => Sight.line x.mark (lineText alnum x)) ++ k' →
    ls.map (fun x => (x.mark, lineText alnum x)) = ls'.map (fun x => (x.mark, lineText alnum x)) ∧ k = k'
  | [], [], k, k', _, _, e => ⟨rfl, by simpa using e⟩
  | [], y :: ls', k, k', h, _, e => by
    simp only [List.map_nil, List.nil_append, List.map_cons, List.cons_append] at e
    subst e; exact absurd rfl (h _ _)
  | x :: ls, [], k, k', _, h, e => by
    simp only [List.map_nil, List.nil_append, List.map_cons, List.cons_append] at e
    subst e; exact absurd rfl (h _ _)
  | x :: ls, y :: ls', k, k', h, h', e => by
    simp only [List.map_cons, List.cons_append, List.cons.injEq, Sight.line.injEq] at e
    obtain ⟨e1, e2⟩ := lines_inj h h' e.2
    exact ⟨by simp [e.1.1, e.1.2, e1], e2⟩

mutual
theorem node_inj : ∀ (n n' : Node) {k k' : List Sight}, n.sights alnum ++ k = n'.sights alnum ++ k' →
    n.tree alnum = n'.tree alnum ∧ k = k'
  | .item ls kids, .item ls' kids', k, k', e => by
    simp only [Node.sights, List.cons_append, List.append_assoc, List.cons.injEq, true_and, List.nil_append] at e
    have head : ∀ (kids : Option (List Node)) (k : List Sight) m x,
        (kidsSights alnum kids ++ Sight.closeItem :: k).head? ≠ some (.line m x) := by
      intro kids k m x; cases kids <;> simp [kidsSights]
    obtain ⟨h1, h2⟩ := lines_inj (head kids k) (head kids' k') e
    obtain ⟨h3, h4⟩ := kids_inj kids kids' h2
    exact ⟨by simp only [Node.tree, h1, h3], h4⟩
theorem kids_inj : ∀ (kids kids' : Option (List Node)) {k k' : List Sight},
    kidsSights alnum kids ++ Sight.closeItem :: k = kidsSights alnum kids' ++ Sight.closeItem :: k' →
    kidsTrees alnum kids = kidsTrees alnum kids' ∧ k = k'
  | none, none, k, k', e => by simpa [kidsSights, kidsTrees] using e
  | none, some ns, k, k', e => by simp [kidsSights] at e
  | some ns, none, k, k', e => by simp [kidsSights] at e
  | some ns, some ns', k, k', e => by
    simp only [kidsSights, List.cons_append, List.append_assoc, List.cons.injEq, true_and, List.nil_append] at e
    obtain ⟨h1, h2⟩ := nodes_inj ns ns' (by simp) (by simp) e
    exact ⟨by simp only [kidsTrees, h1], by simpa using h2⟩
theorem nodes_inj : ∀ (ns ns' : List Node) {k k' : List Sight}, k.head? ≠ some .openItem → k'.head? ≠ some .openItem →
    sights alnum ns ++ k = sights alnum ns' ++ k' → trees alnum ns = trees alnum ns' ∧ k = k'
  | [], [], k, k', _, _, e => ⟨rfl, by simpa [sights] using e⟩
  | [], .item ls kids :: ns', k, k', h, _, e => by
    simp only [sights, Node.sights, List.nil_append, List.cons_append] at e
    subst e; exact absurd rfl h
  | .item ls kids :: ns, [], k, k', _, h, e => by
    simp only [sights, Node.sights, List.nil_append, List.cons_append] at e
    subst e; exact absurd rfl h
  | n :: ns, n' :: ns', k, k', h, h', e => by
    simp only [sights, List.append_assoc] at e
    obtain ⟨h1, h2⟩ := node_inj n n' e
    obtain ⟨h3, h4⟩ := nodes_inj ns ns' h h' h2
    exact ⟨by simp only [trees, h1, h3], h4⟩
end

/-- **C80 (the tree).** Items of which the same is to be seen are the same items, with the same lines, marks and texts. -/
theorem C80_tree {ns ns' : List Node} (e : sights alnum ns = sights alnum ns') : trees alnum ns = trees alnum ns' :=
  (nodes_inj ns ns' (k := []) (k' := []) (by simp) (by simp) (by rw [e])).1

/-- **C80 (one reading).** A page can be read in one way only: if it reads as some items and as others, they are the same. -/
theorem C80_one_reading {t : EntityTable} {h : Str} {ns ns' : List Node} (hr : Reads t alnum h ns) (hr' : Reads t alnum h ns') :
    trees alnum ns = trees alnum ns' := C80_tree ((C80_look hr).symm.trans (C80_look hr'))

/-- A page of an item with a changed value, a label, an entity and a link, and what is seen of it. -/
example : look stdTable (lit "<li class=\"treebranch\"><span class=\"field\">fn f&lt;T&gt;</span><ul>\n<li><span class=\"field\">size:</span> <span class=\"field\"><span class=\"del\">4</span><br>\n<span class=\"add\">8 (+4)</span></span></li>\n<li><span>calls:</span></li>\n<li><span class=\"field add\"><a class=\"link\" href=\"#3\"><span title=\"a::b\">b</span></a></span></li>\n</ul></li>\n") =
    [.openItem, .line .same (lit "fn f<T>"), .openList, .openItem, .line .del (lit "size: 4"), .line .add (lit "size: 8 (+4)"), .closeItem,
      .openItem, .line .same (lit "calls:"), .closeItem, .openItem, .line .add (lit "b"), .closeItem, .closeList, .closeItem] := by
  decide +kernel

/-- The page of `exReadDiff` (C80), seen by a reader, has the lines of the diff. -/
example : look stdTable (exReadDiff.run (htmlPrinter stdTable asciiAlnum) ⟨true, false, false, false⟩ (Html.new 1 false) false).1.w =
    sights asciiAlnum (pageD (sameHtml stdTable asciiAlnum) false exReadDiff 1) := by decide +kernel

end Verif.Html
