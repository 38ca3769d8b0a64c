import Verif.Print.Lemmas3
import Verif.Path.Props
/-!
# Properties of text output

`D.lines`/`D.flag` are what running a diff closure on the text printer writes and reports;
`P.lines` is the same for print closures. `o.html = false` holds whenever the text printer is used
(main/src/main.rs picks the printer by that option).
-/
namespace Verif.Print
open Verif.Merge

/-! ## C22: the difference flag -/

/-- A diff closure appends its lines to the output and adds its flag to the flag: neither the
output so far nor the flag so far changes what it does. -/
theorem C22_accumulates (o : Opts) (e : D) (s : Text) (f : Bool) :
    (e.run textPrinter o s f).1.w = s.w ++ e.lines o s.indent s.pfx s.inlineDepth ∧
    (e.run textPrinter o s f).2 = (f || e.flag o s.indent s.pfx s.inlineDepth) := by
  rw [D.run_den, D.lines_eq, D.flag_eq]
  exact ⟨rfl, rfl⟩

/-- The flag ends true exactly when some line is marked as deleted or added. -/
theorem C22_flag_iff (o : Opts) (ho : o.html = false) (e : D) (hn : e.NoIgnore)
    (hv : e.Visible o.http) (i : Nat) (x : DiffPrefix) (d : Nat) :
    e.flag o i x d = true ↔ ∃ l ∈ e.lines o i x d, l.marked = true := by
  rw [D.flag_eq, D.lines_eq]
  constructor
  · exact D.den_flagged o e hv i x d
  · rintro ⟨l, h1, h2⟩
    cases hf : (e.den o i x d).2.1 with
    | true => rfl
    | false => rw [D.den_unflagged o ho e hn i x d hf l h1] at h2; cases h2

/-- Without the assumption on items: a closure that reports no difference marks no line. -/
theorem C22_unflagged_clean (o : Opts) (ho : o.html = false) (e : D) (hn : e.NoIgnore) (i : Nat)
    (x : DiffPrefix) (d : Nat) (hf : e.flag o i x d = false) :
    ∀ l ∈ e.lines o i x d, l.marked = false := by
  rw [D.flag_eq] at hf
  rw [D.lines_eq]
  exact D.den_unflagged o ho e hn i x d hf

/-- `print_if_diff` writes everything or nothing, by the flag, and passes the flag on. -/
theorem C22_print_if_diff (o : Opts) (ho : o.html = false) (e : D) (i : Nat) (x : DiffPrefix)
    (d : Nat) :
    (D.printIfDiff e).lines o i x d = (if e.flag o i x d then e.lines o i x d else []) ∧
    (D.printIfDiff e).flag o i x d = e.flag o i x d := by
  rw [D.lines_eq, D.lines_eq, D.flag_eq, D.flag_eq]
  simp [D.den, ho]

/-- The output of a `print_if_diff` section is empty exactly when the flag stayed false. -/
theorem C22_empty_iff (o : Opts) (ho : o.html = false) (e : D)
    (hv : e.Visible o.http) (i : Nat) (x : DiffPrefix) (d : Nat) :
    (D.printIfDiff e).lines o i x d = [] ↔ e.flag o i x d = false := by
  rw [(C22_print_if_diff o ho e i x d).1]
  cases hf : e.flag o i x d with
  | false => simp
  | true =>
    rw [D.flag_eq] at hf
    obtain ⟨l, h1, -⟩ := D.den_flagged o e hv i x d hf
    rw [D.lines_eq]
    simp only [if_true, Bool.true_eq_false, iff_false]
    exact List.ne_nil_of_mem h1

/-- `ignore_diff(true, ..)` writes the same lines and leaves the flag as it was; with `false` it
has no effect at all. -/
theorem C22_ignore (o : Opts) (e : D) (i : Nat) (x : DiffPrefix) (d : Nat) :
    (D.ignoreDiff true e).lines o i x d = e.lines o i x d ∧
    (D.ignoreDiff true e).flag o i x d = false ∧
    (D.ignoreDiff false e).lines o i x d = e.lines o i x d ∧
    (D.ignoreDiff false e).flag o i x d = e.flag o i x d := by
  simp only [D.lines_eq, D.flag_eq]
  simp [D.den]

/-- A non-trivial closure meeting the hypotheses of C22: a changed field in a section with an
added item, under `print_if_diff`. -/
def exD : D :=
  .printIfDiff (.indent false (.label (Str.ofString "fn"))
    (.seq (.line (Str.ofString "size") (.text (Str.ofString "1")) (.text (Str.ofString "2")))
      (.prefixAdd (.label (Str.ofString "x")))))

example : exD.NoIgnore ∧ exD.Visible false := by
  refine ⟨by simp [exD, D.NoIgnore], ?_⟩
  simp only [exD, D.Visible, true_and]
  intro i x d
  exact ⟨.line x i (Str.ofString "x") [], by simp [P.lines, P.run, Text.line], by simp⟩

example : render (exD.lines ⟨false, false, false, false⟩ 0 .none 1) =
    Str.ofString "  fn:\n- \tsize: 1\n+ \tsize: 2\n+ \tx:\n" := by decide +kernel

/-! ## C23: identical inputs -/

/-- When both sides supply the same values, no difference is reported and no line is marked;
inside `print_if_diff` nothing is printed. -/
theorem C23_same (o : Opts) (ho : o.html = false) (e : D) (hs : e.Same) (i : Nat)
    (x : DiffPrefix) (d : Nat) :
    e.flag o i x d = false ∧ (∀ l ∈ e.lines o i x d, l.marked = false) ∧
    (D.printIfDiff e).lines o i x d = [] := by
  have h := D.den_same o e hs i x d
  refine ⟨?_, ?_, ?_⟩
  · rw [D.flag_eq]; exact h.1
  · rw [D.lines_eq]; exact h.2
  · rw [(C22_print_if_diff o ho e i x d).1, D.flag_eq, h.1]; rfl

/-- `sort_list` of a list merged with itself (as `merged_types`, `merged_functions` etc. do for
identical files) prints nothing and reports no difference. -/
theorem C23_sort_list_self (o : Opts) (ho : o.html = false)
    (cmpBy : α → Bool → α → Bool → Ordering) (print print' : α → P) (diff : α → α → D)
    (cmpSort cmp : κ → κ → Ordering) (key : α → κ) (hc : ∀ k, cmp k k = .eq) (l : List α)
    (n : Nat) (hn : l.length ≤ n) (hd : ∀ a ∈ l, (diff a a).Same) (i : Nat) (x : DiffPrefix)
    (d : Nat) :
    render ((D.sortList o cmpBy print print' diff
      (mergeSorted cmpSort cmp key key l l n)).lines o i x d) = [] ∧
    (D.sortList o cmpBy print print' diff
      (mergeSorted cmpSort cmp key key l l n)).flag o i x d = false := by
  have hm : mergeSorted cmpSort cmp key key l l n =
      (stableSort (fun x y => cmpSort (key x) (key y) != .gt) l).map (fun a => .both a a) := by
    unfold mergeSorted
    exact merged_self _ (fun a => hc _) _ _ (by simpa using hn)
  rw [D.lines_eq, D.flag_eq]
  have h := D.render_seqs o ((sortMerged cmpBy false true
    (mergeSorted cmpSort cmp key key l l n)).map (sortListItem o print print' diff)) i x d
  have hall : ∀ e ∈ ((sortMerged cmpBy false true
    (mergeSorted cmpSort cmp key key l l n)).map (sortListItem o print print' diff)),
      render (e.den o i .equal d).1 = [] ∧ (e.den o i .equal d).2.1 = false := by
    intro e he
    obtain ⟨it, hit, rfl⟩ := List.mem_map.1 he
    have hit := (mem_stableSort _).1 hit
    rw [hm] at hit
    obtain ⟨a, ha, rfl⟩ := List.mem_map.1 hit
    have ha := (mem_stableSort _).1 ha
    have hs := D.den_same o (diff a a) (hd a ha) i .equal d
    simp [sortListItem, D.den, hs.1, ho, render]
  unfold D.sortList
  rw [h.1, h.2]
  constructor
  · rw [List.flatMap_eq_nil_iff]; exact fun e he => (hall e he).1
  · rw [List.any_eq_false]; intro e he; simp [(hall e he).2]

/-- `list` of a list with itself (C21: every item is paired with its counterpart) reports no
difference and marks nothing. -/
theorem C23_list_pairs (o : Opts) (ho : o.html = false) (print print' : α → P)
    (diff : α → α → D) (pairs : List (α × α)) (hd : ∀ q ∈ pairs, (diff q.1 q.2).Same) (i : Nat)
    (x : DiffPrefix) (d : Nat) :
    (D.ofItems print print' diff (pairs.map fun q => .both q.1 q.2)).flag o i x d = false ∧
    ∀ l ∈ (D.ofItems print print' diff (pairs.map fun q => .both q.1 q.2)).lines o i x d,
      l.marked = false := by
  have hs : (D.ofItems print print' diff (pairs.map fun q => MergeResult.both q.1 q.2)).Same := by
    unfold D.ofItems
    rw [List.map_map]
    clear i x d
    induction pairs with
    | nil => simp [D.seqs, D.Same]
    | cons q qs ih =>
      simp only [List.map_cons, D.seqs, D.Same]
      exact ⟨hd q (by simp), ih (fun q hq => hd q (List.mem_cons_of_mem _ hq))⟩
  have h := C23_same o ho _ hs i x d
  exact ⟨h.1, h.2.1⟩

example : (D.indent false (.label (Str.ofString "fn"))
    (.line (Str.ofString "size") (.text (Str.ofString "1")) (.name (Str.ofString "1")))).Same := by
  simp [D.Same, Val.text']

/-- C67, positive part: while nothing differs, no line is marked as modified and the marker does not
become `Modify`. -/
theorem C67_same_not_modified_partial (o : Opts) (e : D) (hs : e.Same) (s : Text) (f : Bool)
    (hx : s.pfx ≠ .modify) : (e.run textPrinter o s f).1.pfx ≠ .modify ∧
      ∀ l ∈ e.lines o s.indent s.pfx s.inlineDepth, l.pfx ≠ some .modify := by
  rw [D.run_den, D.lines_eq]
  exact D.den_same_pfx o e hs _ _ _ hx

/-! ## C24: added and deleted items -/

/-- What an item of a merged list contributes to `sort_list`: a pair is shown exactly when its
diff reports a difference, a deleted or added item unless that is switched off. -/
def contribution (o : Opts) (print print' : α → P) (diff : α → α → D) (i d : Nat) :
    MergeResult α α → List Line
  | .both a b => if (diff a b).flag o i .equal d then (diff a b).lines o i .equal d else []
  | .left a => if o.ignoreDeleted then [] else (print a).lines o.http i .delete d
  | .right b => if o.ignoreAdded then [] else (print' b).lines o.http i .add d

/-- Whether an item makes `sort_list` report a difference. -/
def contributes (o : Opts) (diff : α → α → D) (i d : Nat) : MergeResult α α → Bool
  | .both a b => (diff a b).flag o i .equal d
  | .left _ => !o.ignoreDeleted
  | .right _ => !o.ignoreAdded

/-- The text of `sort_list` is the concatenation of the contributions of all items, each
exactly once, in the order of the sorted list. -/
theorem C24_sort_list (o : Opts) (ho : o.html = false) (cmpBy : α → Bool → α → Bool → Ordering)
    (print print' : α → P) (diff : α → α → D) (items : List (MergeResult α α)) (i : Nat)
    (x : DiffPrefix) (d : Nat) :
    ∃ order, order.Perm items ∧
      order = stableSort (fun x y => MergeResult.cmp cmpBy false true x y != .gt) items ∧
      render ((D.sortList o cmpBy print print' diff items).lines o i x d) =
        order.flatMap (fun it => render (contribution o print print' diff i d it)) ∧
      (D.sortList o cmpBy print print' diff items).flag o i x d =
        items.any (contributes o diff i d) := by
  refine ⟨_, stableSort_perm _ items, rfl, ?_, ?_⟩
  · rw [D.lines_eq]
    unfold D.sortList
    rw [(D.render_seqs _ _ _ _ _).1, List.flatMap_map]
    unfold sortMerged
    congr 1
    funext it
    cases it with
    | both a b => simp [sortListItem, D.den, contribution, D.flag_eq, D.lines_eq, ho]
    | left a =>
      by_cases h : o.ignoreDeleted <;> simp [sortListItem, D.den, contribution, P.lines_eq, h]
    | right a =>
      by_cases h : o.ignoreAdded <;> simp [sortListItem, D.den, contribution, P.lines_eq, h]
  · rw [D.flag_eq]
    unfold D.sortList
    rw [(D.render_seqs _ _ _ _ _).2, List.any_map]
    have : (fun e => (D.den o e i DiffPrefix.equal d).2.1) ∘ sortListItem o print print' diff =
        contributes o diff i d := by
      funext it
      cases it with
      | both a b => simp [sortListItem, D.den, contributes, D.flag_eq]
      | left a =>
        by_cases h : o.ignoreDeleted <;> simp [sortListItem, D.den, contributes, h]
      | right a =>
        by_cases h : o.ignoreAdded <;> simp [sortListItem, D.den, contributes, h]
    rw [this]
    exact List.Perm.any_eq (stableSort_perm _ _)

example : render ((D.sortList ⟨false, false, true, false⟩ (fun a _ b _ => compare a b)
    (fun n => .label (dec n)) (fun n => .label (dec n))
    (fun a b => .line [] (.text (dec a)) (.text (dec b)))
    [.right 5, .left 4, .both 2 3, .both 1 1]).lines ⟨false, false, true, false⟩ 1 .none 0) =
    Str.ofString "- \t2\n+ \t3\n+ \t5:\n" := by decide +kernel

/-! ## C25: markers and indentation -/

/-- Every line of a print closure carries the marker of its section and is indented at least as
deep as the section. -/
theorem C25_section_lines (http : Bool) (p : P) (i : Nat) (x : DiffPrefix) (d : Nat) :
    ∀ l ∈ p.lines http i x d, l = .brk ∨ (l.pfx = some x ∧ ∃ j, l.indent = some j ∧ i ≤ j) := by
  rw [P.lines_eq]
  intro l hl
  rcases P.ls_pfx http p i x d l hl with h | h
  · exact .inl h
  · cases l with
    | brk => exact .inl rfl
    | line p' j a b => exact .inr ⟨h, j, rfl, P.ls_indent http p i x d _ hl j rfl⟩
    | instr p' j a m b => exact .inr ⟨h, j, rfl, P.ls_indent http p i x d _ hl j rfl⟩

/-- A header with a body prints the header's lines at the current level followed by the body's
lines one level deeper. -/
theorem C25_header_body (http : Bool) (c : Bool) (h b : P) (i : Nat) (x : DiffPrefix) (d : Nat) :
    (P.indent c h b).lines http i x d = h.lines http i x d ++ b.lines http (i + 1) x d := by
  simp only [P.lines_eq, P.ls]

/-- The same for diff closures; the header is marked as modified when the body differs. -/
theorem C25_header_body_diff (o : Opts) (c : Bool) (h b : D) (i : Nat) (x : DiffPrefix) (d : Nat)
    (hb : b.lines o (i + 1) .equal d ≠ []) :
    (D.indent c h b).lines o i x d =
      h.lines o i (if b.flag o (i + 1) .equal d then .modify else .equal) d ++
        b.lines o (i + 1) .equal d := by
  simp only [D.lines_eq, D.flag_eq] at hb ⊢
  simp only [D.den, hb, if_false]

/-- Moving a section `k` levels deeper adds `k` tabs to each line and changes nothing else. -/
theorem C25_deeper (http : Bool) (p : P) (i k : Nat) (x : DiffPrefix) (d : Nat) :
    p.lines http (i + k) x d = (p.lines http i x d).map (Line.shift k) := by
  simp only [P.lines_eq]
  rw [P.ls_map http p i k x x d]
  refine List.map_congr_left fun l hl => ?_
  rcases P.ls_pfx http p i x d l hl with h | h
  · subst h; rfl
  · cases l <;> simp [Line.pfx] at h <;> subst h <;> rfl

/-- The bytes of a line: two-character marker, one tab per level, label, value, newline. -/
theorem C25_render_line (x : DiffPrefix) (i : Nat) (label buf : Str) (hl : label ≠ [])
    (hb : buf ≠ []) : (Line.line x i label buf).render =
      (match x with
        | .none => []
        | .delete => [45, 32]
        | .add => [43, 32]
        | _ => [32, 32]) ++ List.replicate i 9 ++ label ++ [58, 32] ++ buf ++ [10] := by
  have h1 : (!label.isEmpty) = true := by cases label <;> simp_all
  have h2 : (!buf.isEmpty) = true := by cases buf <;> simp_all
  have e1 : Str.ofString ":" = [58] := by decide
  have e2 : Str.ofString " " = [32] := by decide
  have e3 : Str.ofString "  " = [32, 32] := by decide
  have e4 : Str.ofString "- " = [45, 32] := by decide
  have e5 : Str.ofString "+ " = [43, 32] := by decide
  simp only [Line.render, h1, h2, if_true, writeIndent, e1, e2, e3, e4, e5]
  cases x <;> simp

/-- A changed value prints a `-` line with the old value then a `+` line with the new one. -/
theorem C25_changed (o : Opts) (label : Str) (a b : Val) (i : Nat) (x : DiffPrefix) (d : Nat)
    (ha : a.text' ≠ []) (hb : b.text' ≠ []) (hab : a.text' ≠ b.text') :
    (D.line label a b).lines o i x d =
      [.line .delete i label a.text', .line .add i label b.text'] := by
  rw [D.lines_eq]
  simp [D.den, ha, hb, hab]

/-- An unchanged value prints one unmarked line; a value present on one side only prints one line
marked for that side. -/
theorem C25_unchanged (o : Opts) (label : Str) (a b : Val) (i : Nat) (x : DiffPrefix) (d : Nat)
    (ha : a.text' ≠ []) :
    (∃ y, (y = .equal ∨ y = .modify) ∧
      (D.line label a a).lines o i x d = [.line y i label a.text']) ∧
    (b.text' = [] → (D.line label a b).lines o i x d = [.line .delete i label a.text']) ∧
    (b.text' = [] → (D.line label b a).lines o i x d = [.line .add i label a.text']) := by
  simp only [D.lines_eq]
  refine ⟨⟨if x = .modify then .modify else .equal, ?_, ?_⟩, ?_, ?_⟩
  · split <;> simp
  · simp [D.den, ha]
  · intro hb; simp [D.den, ha, hb]
  · intro hb; simp [D.den, hb, Ne.symm ha]

example : render ((P.indent true (.line [] (.text (Str.ofString "struct S")))
    (.fieldU64 (Str.ofString "size") 12)).lines false 0 .delete 1) =
    Str.ofString "- struct S\n- \tsize: 12\n" := by decide +kernel

/-! ## C26: inline depth -/

/-- With inline depth `depth` a closure prints what it would print with its inlined parts written
out to exactly that many nested levels and left out below. -/
theorem C26_depth (http : Bool) (p : P) (i : Nat) (x : DiffPrefix) (depth any : Nat) :
    p.lines http i x depth = (p.expand depth).lines http i x any := by
  simp only [P.lines_eq, P.ls_expand]

/-- The same for diffs, and the reported difference. -/
theorem C26_depth_diff (o : Opts) (e : D) (i : Nat) (x : DiffPrefix) (depth any : Nat) :
    e.lines o i x depth = (e.expand depth).lines o i x any ∧
    e.flag o i x depth = (e.expand depth).flag o i x any := by
  simp only [D.lines_eq, D.flag_eq, D.den_expand, and_self]

/-- After any closure the depth counter (and the indentation) is what it was before. -/
theorem C26_restored (http : Bool) (o : Opts) (p : P) (e : D) (s : Text) (f : Bool) :
    (p.run textPrinter http s).inlineDepth = s.inlineDepth ∧
    (p.run textPrinter http s).indent = s.indent ∧
    (p.run textPrinter http s).pfx = s.pfx ∧
    (e.run textPrinter o s f).1.inlineDepth = s.inlineDepth ∧
    (e.run textPrinter o s f).1.indent = s.indent := by
  rw [P.run_ls, D.run_den]
  simp

example : render ((P.inline (.seq (.label (Str.ofString "a"))
    (.inline (.seq (.label (Str.ofString "b")) (.inline (.label (Str.ofString "c"))))))).lines
      false 0 .none 2) = Str.ofString "a:\nb:\n" := by decide +kernel

/-! ## C59: numeric differences -/

/-- The printed difference is new minus old exactly when both values are below `2^63` or both
are at least `2^63`. In the other cases the subtraction overflows (a panic with overflow checks)
or the printed number is off by `2^64`. -/
theorem C59_delta_exact_iff (a b : Nat) (ha : a < 2 ^ 64) (hb : b < 2 ^ 64) :
    fieldDelta a b = some ((b : Int) - (a : Int)) ↔ (a < 2 ^ 63 ↔ b < 2 ^ 63) := by
  unfold fieldDelta asI64
  by_cases h1 : a < 2 ^ 63 <;> by_cases h2 : b < 2 ^ 63 <;> simp only [h1, h2, if_true, if_false]
  · simp; omega
  · simp; intros; omega
  · simp; intros; omega
  · simp; omega

/-- A changed numeric field prints the old value, then the new value followed by the signed
difference in parentheses, and reports a difference. -/
theorem C59_changed (o : Opts) (label : Str) (a b : Nat) (hab : a ≠ b)
    (ha : a < 2 ^ 64) (hb : b < 2 ^ 64) (hs : a < 2 ^ 63 ↔ b < 2 ^ 63) (i : Nat) (x : DiffPrefix) (d : Nat) :
    ∃ e, D.fieldU64 label a b = some e ∧
      e.lines o i x d = [.line .delete i label (dec a), .line .add i label (dec b ++
        [32, 40] ++ (if a < b then 43 :: dec (b - a) else 45 :: dec (a - b)) ++ [41])] ∧
      e.flag o i x d = true := by
  have hd : fieldDelta a b = some ((b : Int) - (a : Int)) :=
    (C59_delta_exact_iff a b ha hb).2 hs
  have e1 : Str.ofString " (" = [32, 40] := by decide
  have e2 : Str.ofString ")" = [41] := by decide
  have e3 : Str.ofString "+" = [43] := by decide
  have e4 : Str.ofString "-" = [45] := by decide
  have hsd : signedDec ((b : Int) - (a : Int)) =
      (if a < b then 43 :: dec (b - a) else 45 :: dec (a - b)) := by
    unfold signedDec
    rw [e3, e4]
    by_cases h : a < b
    · rw [if_pos (by omega), if_pos h]
      have : ((b : Int) - (a : Int)).toNat = b - a := by omega
      rw [this]; rfl
    · rw [if_neg (by omega), if_neg h]
      have : (-((b : Int) - (a : Int))).toNat = a - b := by omega
      rw [this]; rfl
  refine ⟨.line label (.text (dec a)) (.seq (.text (dec b))
    (.text (Str.ofString " (" ++ signedDec ((b : Int) - (a : Int)) ++ Str.ofString ")"))),
    by simp only [D.fieldU64, fieldU64Val, ne_eq, not_true, if_false, Ne.symm hab,
      not_false_eq_true, if_true, hd, Option.map_some], ?_, ?_⟩
  all_goals
    have hne : dec a ≠ dec b ++ ([32, 40] ++
        (if a < b then 43 :: dec (b - a) else 45 :: dec (a - b)) ++ [41]) := by
      intro h
      have : 32 ∈ dec a := by rw [h]; simp
      exact dec_no_space a this
  · rw [C25_changed]
    · simp [Val.text', hsd, e1, e2]
    · exact dec_ne_nil a
    · simp [Val.text', dec_ne_nil]
    · simp only [Val.text', hsd, e1, e2]
      exact hne
  · rw [D.flag_eq]
    have hnb : ¬ dec b ++ ([32, 40] ++
        (if a < b then 43 :: dec (b - a) else 45 :: dec (a - b)) ++ [41]) = [] := by
      simp [dec_ne_nil]
    simp only [D.den, Val.text', hsd, e1, e2, hne, dec_ne_nil, hnb, if_false]

/-- An unchanged numeric field prints its value once without a difference. -/
theorem C59_unchanged (o : Opts) (label : Str) (a : Nat) (i : Nat) (x : DiffPrefix) (d : Nat) :
    ∃ e, D.fieldU64 label a a = some e ∧ e.flag o i x d = false ∧
      ∃ y, (y = .equal ∨ y = .modify) ∧ e.lines o i x d = [.line y i label (dec a)] := by
  refine ⟨.line label (.text (dec a)) (.text (dec a)), by simp [D.fieldU64, fieldU64Val], ?_, ?_⟩
  · rw [D.flag_eq]; simp only [D.den]; split <;> split <;> simp_all
  · exact (C25_unchanged o label (.text (dec a)) .nil i x d (dec_ne_nil a)).1

/-- Different numbers print differently. -/
theorem C59_injective (a b : Nat) : dec a = dec b ↔ a = b :=
  ⟨dec_inj, fun h => by rw [h]⟩

/-- Finding: sizes on either side of `2^63` make `field_u64` overflow (or print a wrong
difference). -/
theorem C59_overflow_witness : fieldDelta 0 (2 ^ 63) = some (-(2 ^ 63)) ∧
    fieldDelta 1 (2 ^ 63) = none ∧ fieldDelta (2 ^ 63) 0 = none := by decide +kernel

example : (do
    let e ← D.fieldU64 (Str.ofString "size") 10 7
    pure (render (e.lines ⟨false, false, false, false⟩ 1 .equal 0))) =
    some (Str.ofString "- \tsize: 10\n+ \tsize: 7 (-3)\n") := by decide +kernel

/-! ## C66: both listings can be read off a diff -/

/-- In a diff without hidden parts, the lines marked `-` are lines of the old listing in order, and
the old listing is found, in order, among the lines not marked `+`; correspondingly for the new
listing with `+` and `-` exchanged. Lines are compared without their markers. -/
theorem C66_listings (o : Opts) (e : D) (hn : e.NoHide) (i : Nat) (x : DiffPrefix) (d : Nat) :
    let old := ((e.side false).lines o.http i .none d)
    let new := ((e.side true).lines o.http i .none d)
    let diff := e.lines o i x d
    ((diff.filter Line.isDel).map Line.erase).Sublist (old.map Line.erase) ∧
    (old.map Line.erase).Sublist ((diff.filter (fun l => !l.isAdd)).map Line.erase) ∧
    ((diff.filter Line.isAdd).map Line.erase).Sublist (new.map Line.erase) ∧
    (new.map Line.erase).Sublist ((diff.filter (fun l => !l.isDel)).map Line.erase) := by
  simp only [P.lines_eq, D.lines_eq]
  have h0 := D.den_side o e hn false i x d
  have h1 := D.den_side o e hn true i x d
  exact ⟨h0.1, h0.2, h1.1, h1.2⟩

/-- Finding: the header of an optional section is shown unmarked even when only one of the
listings has it, so the unmarked lines are not always common to both. -/
theorem C66_header_unmarked :
    let e := D.field false (Str.ofString "members")
      (.line [] .nil (.text (Str.ofString "x")))
    let o : Opts := ⟨false, false, false, false⟩
    e.lines o 0 .equal 0 =
      [.line .modify 0 (Str.ofString "members") [], .line .add 1 [] (Str.ofString "x")] ∧
    (e.side false).lines false 0 .none 0 = [] := by decide +kernel

example : (D.seq (.label (Str.ofString "a"))
    (.line (Str.ofString "s") (.text (Str.ofString "1")) (.text (Str.ofString "2")))).NoHide := by
  simp [D.NoHide]

/-- Finding: `block` reports a difference whenever it prints anything, also when both sides are
the same. -/
theorem C22_block_always_differs :
    (D.block (.label (Str.ofString "a")) (.label (Str.ofString "a"))).flag
      ⟨false, false, false, false⟩ 0 .equal 0 = true := by decide +kernel

end Verif.Print
