import Verif.Print.Spec
namespace Verif.Print
open Verif.Merge

/-! ## Compositional description of the lines written -/

/-- Lines of a print closure, by recursion on the closure. -/
def P.ls (http : Bool) : P → Nat → DiffPrefix → Nat → List Line
  | .skip, _, _, _ => []
  | .seq p q, i, x, d => p.ls http i x d ++ q.ls http i x d
  | .lineBreak, _, _, _ => [.brk]
  | .label l, i, x, _ => [.line x i l []]
  | .line l v, i, x, _ => if v.text' = [] then [] else [.line x i l v.text']
  | .instruction a m v, i, x, _ => [.instr x i a m v.text']
  | .indent _ h b, i, x, d => h.ls http i x d ++ b.ls http (i + 1) x d
  | .field _ l b, i, x, d =>
    if b.ls http (i + 1) x d = [] then [] else .line x i l [] :: b.ls http (i + 1) x d
  | .id _ h b, i, x, d => h.ls http i x d ++ b.ls http (i + 1) x d
  | .fieldDetail _ l b, i, x, d =>
    if http then [] else
    if b.ls http (i + 1) x d = [] then [] else .line x i l [] :: b.ls http (i + 1) x d
  | .inline p, i, x, d => if d = 0 then [] else p.ls http i x (d - 1)

theorem printIndent_text (opt c : Bool) (h b : Text → Text)
    (hl bl : Nat → DiffPrefix → Nat → List Line)
    (hh : ∀ s : Text, h s = { s with w := s.w ++ hl s.indent s.pfx s.inlineDepth })
    (hb : ∀ s : Text, b s = { s with w := s.w ++ bl s.indent s.pfx s.inlineDepth })
    (s : Text) : printIndent textPrinter opt c h b s = { s with w := s.w ++
      (if opt = true ∧ bl (s.indent + 1) s.pfx s.inlineDepth = [] then []
       else hl s.indent s.pfx s.inlineDepth ++ bl (s.indent + 1) s.pfx s.inlineDepth) } := by
  simp only [printIndent, textPrinter, hh, hb, List.nil_append]
  cases h1 : bl (s.indent + 1) s.pfx s.inlineDepth with
  | nil => cases opt <;> simp
  | cons y ys => simp

theorem P.run_ls (http : Bool) (p : P) : ∀ s : Text, p.run textPrinter http s =
    { s with w := s.w ++ p.ls http s.indent s.pfx s.inlineDepth } := by
  induction p with
  | skip => intro s; cases s; simp [P.run, P.ls]
  | seq p q ihp ihq =>
    intro s
    rw [P.run, ihp s, ihq]
    simp only [P.ls, List.append_assoc]
  | lineBreak => intro s; rfl
  | label l => intro s; rfl
  | line l v =>
    intro s
    show (if (!(v.text').isEmpty) = true then Text.line l v.text' s else s) = _
    simp only [P.ls]
    cases h : v.text' with
    | nil => simp
    | cons y ys => simp [Text.line]
  | instruction a m v => intro s; rfl
  | indent c h b ihh ihb =>
    intro s
    rw [P.run, printIndent_text _ _ _ _ _ _ ihh ihb]
    simp [P.ls]
  | field c l b ihb =>
    intro s
    rw [P.run, printIndent_text _ _ (Text.line l []) _ (fun i x _ => [.line x i l []]) _ (fun s => rfl) ihb]
    simp [P.ls]
  | id n h b ihh ihb =>
    intro s
    show ({ (P.run textPrinter http h s) with w :=
      (P.run textPrinter http b { (P.run textPrinter http h s) with
        indent := (P.run textPrinter http h s).indent + 1 }).w } : Text) = _
    simp [ihh, ihb, P.ls]
  | fieldDetail i l b ihb =>
    intro s
    rw [P.run]
    cases http
    · rw [if_neg (by simp)]
      rw [printIndent_text _ _ (Text.line l []) _ (fun i x _ => [.line x i l []]) _ (fun s => rfl) ihb]
      simp [P.ls]
    · show s = _
      simp [P.ls]
  | inline p ih =>
    intro s
    rw [P.run]
    simp only [P.ls]
    by_cases h : s.inlineDepth = 0
    · cases s; simp_all
    · simp only [h, if_false]
      rw [ih]
      cases s; simp_all; omega

theorem P.lines_eq (http : Bool) (p : P) (i : Nat) (x : DiffPrefix) (d : Nat) :
    p.lines http i x d = p.ls http i x d := by
  unfold P.lines
  rw [P.run_ls]
  simp

/-- Lines, flag and final prefix of a diff closure, by recursion on the closure. -/
def D.den (o : Opts) : D → Nat → DiffPrefix → Nat → List Line × Bool × DiffPrefix
  | .skip, _, x, _ => ([], false, x)
  | .seq p q, i, x, d =>
    let r := p.den o i x d
    let t := q.den o i r.2.2 d
    (r.1 ++ t.1, r.2.1 || t.2.1, t.2.2)
  | .lineBreak, _, x, _ => ([.brk], false, x)
  | .label l, i, x, _ =>
    let x := if x = .modify then .modify else .equal
    ([.line x i l []], false, x)
  | .line l va vb, i, x, _ =>
    let a := va.text'
    let b := vb.text'
    if a = b then
      if a = [] then ([], false, x)
      else
        let x := if x = .modify then .modify else .equal
        ([.line x i l a], false, x)
    else if a = [] then ([.line .add i l b], true, .add)
    else if b = [] then ([.line .delete i l a], true, .delete)
    else ([.line .delete i l a, .line .add i l b], true, .add)
  | .indent _ h b, i, x, d =>
    let r := b.den o (i + 1) .equal d
    if r.1 = [] then h.den o i x d
    else
      let t := h.den o i (if r.2.1 then .modify else .equal) d
      (t.1 ++ r.1, r.2.1 || t.2.1, t.2.2)
  | .field _ l b, i, x, d =>
    let r := b.den o (i + 1) .equal d
    if r.1 = [] then ([], false, x)
    else
      let x := if r.2.1 then .modify else .equal
      (.line x i l [] :: r.1, r.2.1, x)
  | .id _ h b, i, _, d =>
    let r := b.den o (i + 1) .equal d
    let t := h.den o i (if r.2.1 then .modify else .equal) d
    (t.1 ++ r.1, r.2.1 || t.2.1, t.2.2)
  | .inline p, i, x, d => if d = 0 then ([], false, x) else p.den o i x (d - 1)
  | .prefixDelete p, i, _, d => (p.ls o.http i .delete d, true, .delete)
  | .prefixAdd p, i, _, d => (p.ls o.http i .add d, true, .add)
  | .block a b, i, x, d =>
    let l := a.ls o.http i .delete d ++ b.ls o.http i .add d
    (l, !l.isEmpty, x)
  | .printIfDiff p, i, x, d =>
    let r := p.den o i x d
    (if r.2.1 || o.html then r.1 else [], r.2.1, x)
  | .ignoreDiff flag p, i, x, d =>
    let r := p.den o i x d
    (r.1, if flag then false else r.2.1, r.2.2)

theorem D.run_den (o : Opts) (e : D) : ∀ (s : Text) (f : Bool), e.run textPrinter o s f =
    ({ s with w := s.w ++ (e.den o s.indent s.pfx s.inlineDepth).1,
              pfx := (e.den o s.indent s.pfx s.inlineDepth).2.2 },
     f || (e.den o s.indent s.pfx s.inlineDepth).2.1) := by
  induction e with
  | skip => intro s f; simp [D.run, D.den]
  | seq p q ihp ihq =>
    intro s f
    rw [D.run, ihp s f]
    simp only [ihq, D.den]
    simp [Bool.or_assoc]
  | lineBreak => intro s f; simp [D.run, D.den, textPrinter]
  | label l =>
    intro s f
    simp only [D.run, diffLabel, D.den, textPrinter, Text.line]
    by_cases h : s.pfx = .modify <;> simp [h]
  | line l a b =>
    intro s f
    simp only [D.run, diffLine, D.den, textPrinter, Text.line]
    by_cases h1 : a.text' = b.text'
    · by_cases h2 : b.text' = []
      · simp [h1, h2]
      · by_cases h : s.pfx = .modify <;> simp [h1, h2, h]
    · by_cases h2 : a.text' = []
      · have h1' : ¬ [] = b.text' := by rw [← h2]; exact h1
        simp [h1', h2]
      · by_cases h3 : b.text' = []
        · simp [h2, h3]
        · simp [h1, h2, h3]
  | indent c h b ihh ihb =>
    intro s f
    rw [D.run, diffIndent]
    show (let (buf, dd) := (((D.run textPrinter o b
        ({ s with w := [], indent := s.indent + 1, pfx := .equal } : Text) false).1.w : List Line),
        (D.run textPrinter o b
        ({ s with w := [], indent := s.indent + 1, pfx := .equal } : Text) false).2)
      if (!buf.isEmpty) = true then
        let (s, d') := ((({ (D.run textPrinter o h
            ({ s with pfx := if dd then .modify else .equal } : Text) false).1 with w :=
            (D.run textPrinter o h
            ({ s with pfx := if dd then .modify else .equal } : Text) false).1.w ++ buf } : Text)),
            (D.run textPrinter o h
            ({ s with pfx := if dd then .modify else .equal } : Text) false).2)
        (s, f || (dd || d'))
      else if (!false) = true then D.run textPrinter o h s f else (s, f)) = _
    simp only [ihb, ihh, D.den]
    cases hb : (D.den o b (s.indent + 1) .equal s.inlineDepth).1 with
    | nil => simp
    | cons y ys => simp
  | field c l b ihb =>
    intro s f
    rw [D.run, diffIndent]
    show (let (buf, dd) := (((D.run textPrinter o b
        ({ s with w := [], indent := s.indent + 1, pfx := .equal } : Text) false).1.w : List Line),
        (D.run textPrinter o b
        ({ s with w := [], indent := s.indent + 1, pfx := .equal } : Text) false).2)
      if (!buf.isEmpty) = true then
        let (s, d') := ((({ (diffLabel textPrinter l
            ({ s with pfx := if dd then .modify else .equal } : Text) false).1 with w :=
            (diffLabel textPrinter l
            ({ s with pfx := if dd then .modify else .equal } : Text) false).1.w ++ buf } : Text)),
            (diffLabel textPrinter l
            ({ s with pfx := if dd then .modify else .equal } : Text) false).2)
        (s, f || (dd || d'))
      else if (!true) = true then diffLabel textPrinter l s f else (s, f)) = _
    simp only [ihb, D.den]
    cases hb : (D.den o b (s.indent + 1) .equal s.inlineDepth).1 with
    | nil => simp
    | cons y ys =>
      cases hf : (D.den o b (s.indent + 1) .equal s.inlineDepth).2.1 <;>
        simp [diffLabel, textPrinter, Text.line]
  | id n h b ihh ihb =>
    intro s f
    rw [D.run]
    show (let (buf, dd) := (((D.run textPrinter o b
        ({ s with w := [], indent := s.indent + 1, pfx := .equal } : Text) false).1.w : List Line),
        (D.run textPrinter o b
        ({ s with w := [], indent := s.indent + 1, pfx := .equal } : Text) false).2)
        let (s, d') := ((({ (D.run textPrinter o h
            ({ s with pfx := if dd then .modify else .equal } : Text) false).1 with w :=
            (D.run textPrinter o h
            ({ s with pfx := if dd then .modify else .equal } : Text) false).1.w ++ buf } : Text)),
            (D.run textPrinter o h
            ({ s with pfx := if dd then .modify else .equal } : Text) false).2)
        (s, f || (dd || d'))) = _
    simp only [ihb, ihh, D.den]
    simp
  | inline p ih =>
    intro s f
    rw [D.run]
    simp only [D.den]
    by_cases h : s.inlineDepth = 0
    · cases s; simp_all
    · simp only [h, if_false]
      rw [ih]
      cases s; simp_all; omega
  | prefixDelete p =>
    intro s f
    rw [D.run, P.run_ls]
    simp [D.den, textPrinter]
  | prefixAdd p =>
    intro s f
    rw [D.run, P.run_ls]
    simp [D.den, textPrinter]
  | block a b =>
    intro s f
    rw [D.run, diffBlock]
    show (let buf := (P.run textPrinter o.http b ({ (P.run textPrinter o.http a
        ({ s with w := [], pfx := .delete } : Text)) with pfx := .add } : Text)).w
      if (!buf.isEmpty) = true then ({ s with w := s.w ++ buf }, true) else (s, f)) = _
    simp only [P.run_ls, D.den, List.nil_append]
    cases hb : P.ls o.http a s.indent .delete s.inlineDepth ++
        P.ls o.http b s.indent .add s.inlineDepth with
    | nil => simp
    | cons y ys => simp
  | printIfDiff p ih =>
    intro s f
    rw [D.run]
    show (let (buf, dd) := ((D.run textPrinter o p ({ s with w := [] } : Text) false).1.w,
        (D.run textPrinter o p ({ s with w := [] } : Text) false).2)
      (if (dd || o.html) = true then ({ s with w := s.w ++ buf } : Text) else s, f || dd)) = _
    simp only [ih, D.den, List.nil_append, Bool.false_or]
    split <;> simp_all
  | ignoreDiff flag p ih =>
    intro s f
    rw [D.run, ih]
    simp only [D.den]
    cases flag <;> simp

theorem D.lines_eq (o : Opts) (e : D) (i : Nat) (x : DiffPrefix) (d : Nat) :
    e.lines o i x d = (e.den o i x d).1 := by
  unfold D.lines
  rw [D.run_den]
  simp

theorem D.flag_eq (o : Opts) (e : D) (i : Nat) (x : DiffPrefix) (d : Nat) :
    e.flag o i x d = (e.den o i x d).2.1 := by
  unfold D.flag
  rw [D.run_den]
  simp

end Verif.Print
