import Verif.Serve.Spec
import Verif.Ids.Props
import Verif.Bloat.Props
/-!
# Property theorems: C39 (HTTP paths are routed totally)
-/
namespace Verif.Serve
open Verif.Item Verif.Ids Verif.Bloat

theorem splitSlash_ne (s : Str) : splitSlash s ≠ [] := by
  unfold splitSlash
  split
  · simp
  · split
    · simp
    · split <;> simp

/-- Splitting a text without slash followed by the end or a slash. -/
theorem splitSlash_seg (a : Str) (h : 47 ∉ a) : splitSlash a = [a] := by
  induction a with
  | nil => rfl
  | cons c a ih =>
    simp only [List.mem_cons, not_or] at h
    rw [splitSlash, if_neg (fun e => h.1 e.symm), ih h.2]

theorem splitSlash_append (a s : Str) (h : 47 ∉ a) : splitSlash (a ++ 47 :: s) = a :: splitSlash s := by
  induction a with
  | nil => simp [splitSlash]
  | cons c a ih =>
    simp only [List.mem_cons, not_or] at h
    rw [List.cons_append, splitSlash, if_neg (fun e => h.1 e.symm), ih h.2]

/-- Every text is a segment, alone or followed by a slash and the rest. -/
theorem seg_cases (s : Str) : ∃ a, 47 ∉ a ∧ (s = a ∨ ∃ t, s = a ++ 47 :: t) := by
  induction s with
  | nil => exact ⟨[], by simp, .inl rfl⟩
  | cons c s ih =>
    by_cases hc : c = 47
    · exact ⟨[], by simp, .inr ⟨s, by simp [hc]⟩⟩
    · obtain ⟨a, h1, h2⟩ := ih
      refine ⟨c :: a, by simp [h1, Ne.symm hc], ?_⟩
      rcases h2 with rfl | ⟨t, rfl⟩
      · exact .inl rfl
      · exact .inr ⟨t, rfl⟩

theorem parse_iff (d : Str) (n : Nat) : parseUsize d = some n ↔ NumText d n := parseUsize_iff d n

theorem numText_noslash {d : Str} {n : Nat} (h : NumText d n) : 47 ∉ d := by
  obtain ⟨ds, h1, -, h2, -⟩ := h
  intro hm
  have : ∀ c ∈ d, c = 43 ∨ (48 ≤ c ∧ c ≤ 57) := by
    rcases h1 with rfl | rfl
    · exact fun c hc => .inr (h2 c hc)
    · intro c hc
      rcases List.mem_cons.1 hc with rfl | hc
      · exact .inl rfl
      · exact .inr (h2 c hc)
  rcases this 47 hm with h | h <;> omega

/-- What the handlers see. -/
inductive Seen : List Str → Str → Prop
  | mk {s} : Seen (splitSlash s) (47 :: s)

theorem serve_cons (h : List Str → Body) (s : Str) : serve h (47 :: s) = h (splitSlash s) := by
  simp [serve, splitSlash]

/-- Paths, classified. -/
theorem path_cases (path : Str) :
    (IsRoot path ∧ ∃ rest, ∀ h, serve h path = h ([] :: rest)) ∨
    (∃ n d, NumText d n ∧ path = Str.ofString "/id/" ++ d ∧ IsId path n none ∧
      ∀ h, serve h path = h [idSeg, d]) ∨
    (∃ n d seg rest, NumText d n ∧ IsId path n (some seg) ∧
      ∀ h, serve h path = h (idSeg :: d :: seg :: rest)) ∨
    (¬ IsRoot path ∧ (∀ n o, ¬ IsId path n o) ∧
      ((∀ h, serve h path = .empty) ∨
       (∃ s rest, s ≠ [] ∧ s ≠ idSeg ∧ ∀ h, serve h path = h (s :: rest)) ∨
       (∃ rest, nextId rest = none ∧ ∀ h, serve h path = h (idSeg :: rest)))) := by
  have hid : 47 ∉ idSeg := by decide
  -- what an id path looks like after the first slash
  have idForm : ∀ s n o, IsId (47 :: s) n o → ∃ d t, NumText d n ∧ s = idSeg ++ 47 :: (d ++ t) ∧
      (t = [] ∨ t.head? = some 47) := by
    rintro s n o ⟨d, hd, ⟨-, h⟩ | ⟨seg, more, -, -, -, h⟩⟩
    · exact ⟨d, [], hd, by simpa [Str.ofString, idSeg] using h, .inl rfl⟩
    · exact ⟨d, 47 :: (seg ++ more), hd, by simpa [Str.ofString, idSeg] using h, .inr rfl⟩
  cases path with
  | nil => exact .inl ⟨.inl rfl, [], fun h => rfl⟩
  | cons c s =>
    by_cases hc : c = 47
    · subst hc
      simp only [serve_cons]
      obtain ⟨a, ha, hs⟩ := seg_cases s
      by_cases ha0 : a = []
      · subst ha0
        left
        rcases hs with rfl | ⟨t, rfl⟩
        · exact ⟨.inr (.inl rfl), [], fun h => rfl⟩
        · exact ⟨.inr (.inr ⟨t, rfl⟩), splitSlash t, fun h => by simp [splitSlash]⟩
      · right
        have hroot : ¬ IsRoot (47 :: s) := by
          rintro (h | h | ⟨more, h⟩)
          · cases h
          · rcases hs with rfl | ⟨t, rfl⟩
            · exact ha0 (List.cons.inj h).2
            · have := (List.cons.inj h).2; simp at this
          · have h := (List.cons.inj h).2
            rcases hs with rfl | ⟨t, rfl⟩
            · rw [h] at ha; simp at ha
            · cases a with
              | nil => exact ha0 rfl
              | cons x a => simp at h; simp [h.1] at ha
        by_cases hai : a = idSeg
        · subst hai
          rcases hs with rfl | ⟨t, rfl⟩
          · right; right
            refine ⟨hroot, fun n o h => ?_, .inr (.inr ⟨[], rfl, fun h => by rw [splitSlash_seg _ hid]⟩)⟩
            obtain ⟨d, t, -, h, -⟩ := idForm _ n o h
            simp [idSeg] at h
          · obtain ⟨d, hd, ht⟩ := seg_cases t
            cases hn : parseUsize d with
            | none =>
              right; right
              refine ⟨hroot, fun n o h => ?_, .inr (.inr ⟨splitSlash t, ?_, fun h => by rw [splitSlash_append _ _ hid]⟩)⟩
              · obtain ⟨d', t', hd', h, ht'⟩ := idForm _ n o h
                have h : t = d' ++ t' := by simpa using h
                have e : splitSlash t = d' :: (splitSlash t).tail := by
                  rw [h]
                  rcases ht' with rfl | ht'
                  · simp [splitSlash_seg _ (numText_noslash hd')]
                  · cases t' with
                    | nil => cases ht'
                    | cons x t' =>
                      simp at ht'; subst ht'
                      simp [splitSlash_append _ _ (numText_noslash hd')]
                have e' : splitSlash t = d :: (splitSlash t).tail := by
                  rcases ht with rfl | ⟨t2, rfl⟩
                  · simp [splitSlash_seg _ hd]
                  · simp [splitSlash_append _ _ hd]
                rw [e] at e'
                simp at e'
                subst e'
                rw [(parse_iff _ _).2 hd'] at hn
                cases hn
              · rcases ht with rfl | ⟨t2, rfl⟩
                · simp [splitSlash_seg _ hd, nextId, hn]
                · simp [splitSlash_append _ _ hd, nextId, hn]
            | some n =>
              have hd' := (parse_iff _ _).1 hn
              rcases ht with rfl | ⟨t2, rfl⟩
              · left
                refine ⟨n, _, hd', by simp [Str.ofString, idSeg], ⟨_, hd', .inl ⟨rfl, by simp [Str.ofString, idSeg]⟩⟩, fun h => ?_⟩
                rw [splitSlash_append _ _ hid, splitSlash_seg _ hd]
              · right; left
                obtain ⟨seg, hseg, ht2⟩ := seg_cases t2
                rcases ht2 with rfl | ⟨t3, rfl⟩
                · refine ⟨n, d, t2, [], hd', ⟨d, hd', .inr ⟨t2, [], rfl, hseg, .inl rfl, by simp [Str.ofString, idSeg]⟩⟩, fun h => ?_⟩
                  rw [splitSlash_append _ _ hid, splitSlash_append _ _ hd, splitSlash_seg _ hseg]
                · refine ⟨n, d, seg, splitSlash t3, hd', ⟨d, hd', .inr ⟨seg, 47 :: t3, rfl, hseg, .inr rfl, by simp [Str.ofString, idSeg]⟩⟩, fun h => ?_⟩
                  rw [splitSlash_append _ _ hid, splitSlash_append _ _ hd, splitSlash_append _ _ hseg]
        · right; right
          refine ⟨hroot, fun n o h => ?_, .inr (.inl ?_)⟩
          · obtain ⟨d, t, -, h, -⟩ := idForm _ n o h
            have e : splitSlash s = idSeg :: (splitSlash s).tail := by
              rw [h, splitSlash_append _ _ hid]; rfl
            have e' : splitSlash s = a :: (splitSlash s).tail := by
              rcases hs with rfl | ⟨t2, rfl⟩
              · simp [splitSlash_seg _ ha]
              · simp [splitSlash_append _ _ ha]
            rw [e] at e'
            simp at e'
            exact hai e'.symm
          · rcases hs with rfl | ⟨t, rfl⟩
            · exact ⟨_, [], ha0, hai, fun h => by rw [splitSlash_seg _ ha]⟩
            · exact ⟨a, splitSlash t, ha0, hai, fun h => by rw [splitSlash_append _ _ ha]⟩
    · right; right; right
      refine ⟨?_, fun n o h => ?_, .inl fun h => by simp [serve, hc]⟩
      · rintro (h | h | ⟨more, h⟩)
        · cases h
        · exact hc (List.cons.inj h).1
        · exact hc (List.cons.inj h).1
      · obtain ⟨d, -, ⟨-, h⟩ | ⟨seg, more, -, -, -, h⟩⟩ := h
        · simp [Str.ofString] at h; exact hc h.1
        · simp [Str.ofString] at h; exact hc h.1

theorem serve_id {path : Str} {n : Nat} {o : Option Str} (h : IsId path n o) :
    ∃ d rest, parseUsize d = some n ∧ rest.head? = o ∧ ∀ g, serve g path = g (idSeg :: d :: rest) := by
  have hid : 47 ∉ idSeg := by decide
  obtain ⟨d, hd, ⟨rfl, rfl⟩ | ⟨seg, more, rfl, hseg, hm, rfl⟩⟩ := h
  · refine ⟨d, [], (parse_iff _ _).2 hd, rfl, fun g => ?_⟩
    show serve g (47 :: (idSeg ++ 47 :: d)) = _
    rw [serve_cons, splitSlash_append _ _ hid, splitSlash_seg _ (numText_noslash hd)]
  · have e : Str.ofString "/id/" ++ d ++ [47] ++ seg ++ more = 47 :: (idSeg ++ 47 :: (d ++ 47 :: (seg ++ more))) := by
      simp [Str.ofString, idSeg]
    rw [e]
    rcases hm with rfl | hm
    · refine ⟨d, [seg], (parse_iff _ _).2 hd, rfl, fun g => ?_⟩
      rw [serve_cons, splitSlash_append _ _ hid, splitSlash_append _ _ (numText_noslash hd),
        List.append_nil, splitSlash_seg _ hseg]
    · cases more with
      | nil => cases hm
      | cons x more =>
        simp at hm; subst hm
        refine ⟨d, seg :: splitSlash more, (parse_iff _ _).2 hd, rfl, fun g => ?_⟩
        rw [serve_cons, splitSlash_append _ _ hid, splitSlash_append _ _ (numText_noslash hd),
          splitSlash_append _ _ hseg]

theorem serve_root {path : Str} (h : IsRoot path) : ∃ rest, ∀ g, serve g path = g ([] :: rest) := by
  rcases h with rfl | rfl | ⟨more, rfl⟩
  · exact ⟨[], fun g => rfl⟩
  · exact ⟨[], fun g => rfl⟩
  · exact ⟨splitSlash more, fun g => by rw [serve_cons]; simp [splitSlash]⟩

/-- **C39 (unambiguous).** No path is both the root and an id path, and an id path determines the
number and the next segment. -/
theorem C39_unambiguous (path : Str) (n : Nat) (o : Option Str) (h : IsId path n o) :
    ¬ IsRoot path ∧ ∀ m p, IsId path m p → m = n ∧ p = o := by
  obtain ⟨d, rest, h1, h2, h3⟩ := serve_id h
  have inj : ∀ {l l' : List Str}, (∀ g : List Str → Body, g l = g l') → l = l' := by
    intro l l' hg
    have := hg (fun x => if x = l then .page else .empty)
    simp only [if_true] at this
    by_cases e : l' = l
    · exact e.symm
    · simp [e] at this
  refine ⟨fun hr => ?_, fun m p hp => ?_⟩
  · obtain ⟨r, hr⟩ := serve_root hr
    have := inj (fun g => by rw [← h3 g, hr g] : ∀ g : List Str → Body, g (idSeg :: d :: rest) = g ([] :: r))
    simp [idSeg] at this
  · obtain ⟨d', rest', h1', h2', h3'⟩ := serve_id hp
    have := inj (fun g => by rw [← h3 g, h3' g] : ∀ g : List Str → Body, g (idSeg :: d :: rest) = g (idSeg :: d' :: rest'))
    simp at this
    obtain ⟨rfl, rfl⟩ := this
    rw [h1] at h1'
    exact ⟨(Option.some.inj h1').symm, h2'.symm.trans h2⟩

/-- Neither root nor id path: nothing is written, whatever the handler (of the three). -/
theorem serve_other (path : Str) (h1 : ¬ IsRoot path) (h2 : ∀ n o, ¬ IsId path n o)
    (g : List Str → Body) (g1 : ∀ s rest, s ≠ [] → s ≠ idSeg → g (s :: rest) = .empty)
    (g2 : ∀ rest, nextId rest = none → g (idSeg :: rest) = .empty) : serve g path = .empty := by
  rcases path_cases path with h | ⟨n, d, -, -, h, -⟩ | ⟨n, d, seg, rest, -, h, -⟩ | ⟨-, -, h⟩
  · exact absurd h.1 h1
  · exact absurd h (h2 _ _)
  · exact absurd h (h2 _ _)
  · rcases h with h | ⟨s, rest, h3, h4, h⟩ | ⟨rest, h3, h⟩
    · exact h g
    · rw [h, g1 _ _ h3 h4]
    · rw [h, g2 _ h3]

/-- **C39 (print).** For every path: the root shows the whole page; `/id/N` shows the item with
that id if there is one; `/id/N/parent` writes the id of its unit if it has one; `/id/N/DETAIL`
(further segments ignored) shows that detail of the item if there is one; all other paths, and
ids that do not resolve, give an empty body. Nothing panics. -/
theorem C39_print (us : List CompUnit) (path : Str) :
    let s := assignIds us
    let body := serve (servePrintFile us s) path
    (IsRoot path → body = .page) ∧
    (∀ n, IsId path n none → body = ((printId us s.ids n none).map Body.item).getD .empty) ∧
    (∀ n, IsId path n (some (Str.ofString "parent")) →
      body = ((printParent us s n).map Body.number).getD .empty) ∧
    (∀ n d, IsId path n (some d) → d ≠ Str.ofString "parent" →
      body = ((printId us s.ids n (some d)).map Body.item).getD .empty) ∧
    (¬ IsRoot path → (∀ n o, ¬ IsId path n o) → body = .empty) ∧
    body ≠ .panic := by
  intro s body
  have hp : Str.ofString "parent" = parentSeg := by decide
  have h1 : IsRoot path → body = .page := fun h => by
    obtain ⟨rest, h⟩ := serve_root h
    rw [show body = servePrintFile us s ([] :: rest) from h _]; rfl
  have hne : idSeg ≠ [] := by decide
  have hid : ∀ n o, IsId path n o → body = match o with
      | none => ((printId us s.ids n none).map Body.item).getD .empty
      | some d => if d = parentSeg then ((printParent us s n).map Body.number).getD .empty
        else ((printId us s.ids n (some d)).map Body.item).getD .empty := by
    intro n o h
    obtain ⟨d, rest, h1, h2, h3⟩ := serve_id h
    rw [show body = servePrintFile us s (idSeg :: d :: rest) from h3 _]
    subst h2
    cases rest with
    | nil =>
      simp only [servePrintFile, if_neg hne, if_true, nextId, h1, List.tail_cons, List.head?_nil]
      cases printId us s.ids n none <;> rfl
    | cons x rest =>
      simp only [servePrintFile, if_neg hne, if_true, nextId, h1, List.tail_cons, List.head?_cons]
      by_cases hx : x = parentSeg
      · simp only [if_pos hx]
        cases printParent us s n <;> rfl
      · simp only [if_neg hx]
        cases printId us s.ids n (some x) <;> rfl
  have hother : ¬ IsRoot path → (∀ n o, ¬ IsId path n o) → body = .empty := fun h1 h2 =>
    serve_other path h1 h2 _ (fun s rest h3 h4 => by simp [servePrintFile, h3, h4])
      (fun rest h => by simp [servePrintFile, hne, h])
  refine ⟨h1, fun n h => hid n _ h, fun n h => ?_, fun n d h hd => ?_, hother, ?_⟩
  · have := hid n _ h
    rw [hp] at this
    simpa using this
  · have := hid n _ h
    rw [hp] at hd
    simpa [hd] using this
  · by_cases hr : IsRoot path
    · rw [h1 hr]; simp
    · by_cases hx : ∃ n o, IsId path n o
      · obtain ⟨n, o, h⟩ := hx
        rw [hid n o h]
        cases o with
        | none => cases printId us s.ids n none <;> simp
        | some d =>
          simp only
          split
          · cases printParent us s n <;> simp
          · cases printId us s.ids n (some d) <;> simp
      · rw [hother hr (fun n o h => hx ⟨n, o, h⟩)]; simp

/-- **C39 (diff).** The root shows the whole diff; `/id/N` with nothing after it the diff of that
entry of the index (a number beyond the index panics: no response); every other path gives an
empty body. -/
theorem C39_diff (a b : List CompUnit) (ids : List (Id × Id)) (path : Str) :
    let body := serve (serveDiffFile a b ids) path
    (IsRoot path → body = .page) ∧
    (∀ n, IsId path n none →
      (n < ids.length → body = if diffId a b ids n = .nothing then .empty else .diff (diffId a b ids n)) ∧
      (ids.length ≤ n → body = .panic)) ∧
    (∀ n d, IsId path n (some d) → body = .empty) ∧
    (¬ IsRoot path → (∀ n o, ¬ IsId path n o) → body = .empty) := by
  intro body
  have hne : idSeg ≠ [] := by decide
  refine ⟨fun h => ?_, fun n h => ?_, fun n d h => ?_, fun h1 h2 => ?_⟩
  · obtain ⟨rest, h⟩ := serve_root h
    rw [show body = serveDiffFile a b ids ([] :: rest) from h _]; rfl
  · obtain ⟨d, rest, h1, h2, h3⟩ := serve_id h
    rw [show body = serveDiffFile a b ids (idSeg :: d :: rest) from h3 _]
    cases rest with
    | cons x rest => cases h2
    | nil =>
      simp only [serveDiffFile, if_neg hne, if_true, nextId, h1, List.tail_cons]
      constructor
      · intro hn
        have : diffId a b ids n ≠ .panic := by
          unfold diffId
          rw [List.getElem?_eq_getElem hn]
          simp only
          (repeat' split) <;> simp
        cases hd : diffId a b ids n <;> simp_all
      · intro hn
        simp [diffId, List.getElem?_eq_none hn]
  · obtain ⟨d', rest, h1, h2, h3⟩ := serve_id h
    rw [show body = serveDiffFile a b ids (idSeg :: d' :: rest) from h3 _]
    cases rest with
    | nil => cases h2
    | cons x rest => simp [serveDiffFile, hne, nextId, h1]
  · exact serve_other path h1 h2 _ (fun s rest h3 h4 => by simp [serveDiffFile, h3, h4])
      (fun rest h => by simp [serveDiffFile, hne, h])

/-- **C39 (bloat).** The root shows the whole report (or panics as `C38_report` says); `/id/N`,
whatever follows, the callers of that function as `C38_bloat_id` says; every other path gives an
empty body. -/
theorem C39_bloat (us : List CompUnit) (store : Id → Nat) (idx : Bloat.Index) (path : Str) :
    let body := serve (serveBloatFile us store idx) path
    (IsRoot path → body = if (bloat us store idx).isSome then .page else .panic) ∧
    (∀ n o, IsId path n o →
      (bloatId us store idx n = .nothing → body = .empty) ∧
      (bloatId us store idx n = .panic → body = .panic) ∧
      (∀ p, bloatId us store idx n = .shown p → body = .callers p)) ∧
    (¬ IsRoot path → (∀ n o, ¬ IsId path n o) → body = .empty) := by
  intro body
  have hne : idSeg ≠ [] := by decide
  refine ⟨fun h => ?_, fun n o h => ?_, fun h1 h2 => ?_⟩
  · obtain ⟨rest, h⟩ := serve_root h
    rw [show body = serveBloatFile us store idx ([] :: rest) from h _]
    simp only [serveBloatFile, if_true]
    cases bloat us store idx <;> rfl
  · obtain ⟨d, rest, h1, h2, h3⟩ := serve_id h
    rw [show body = serveBloatFile us store idx (idSeg :: d :: rest) from h3 _]
    simp only [serveBloatFile, if_neg hne, if_true, nextId, h1]
    cases bloatId us store idx n <;> simp
  · exact serve_other path h1 h2 _ (fun s rest h3 h4 => by simp [serveBloatFile, h3, h4])
      (fun rest h => by simp [serveBloatFile, hne, h])

/-- Non-vacuity: the path forms occur. -/
example : IsRoot (Str.ofString "//x") ∧ IsId (Str.ofString "/id/+12") 12 none ∧
    IsId (Str.ofString "/id/7/code/x") 7 (some (Str.ofString "code")) := by
  refine ⟨.inr (.inr ⟨_, rfl⟩), ⟨Str.ofString "+12", ⟨Str.ofString "12", by decide⟩, .inl ⟨rfl, by decide⟩⟩,
    ⟨Str.ofString "7", ⟨Str.ofString "7", by decide⟩, .inr ⟨_, Str.ofString "/x", rfl, by decide, by decide, by decide⟩⟩⟩

/-- Non-vacuity: a file with one unit and a function; `/id/1` shows the function. -/
example :
    let us : List CompUnit := [{ functions := [{ name := some [102] }] }]
    serve (servePrintFile us (assignIds us)) (Str.ofString "/id/1") =
      .item (.function { functions := [{ name := some [102] }] } { name := some [102] }) := by
  rfl

end Verif.Serve
