import Verif.Page.EntrySpec
import Verif.Page.Props
import Verif.Whole.Props
/-!
# C106: what the page of a file shows of its debug information
-/
namespace Verif.Page
open Verif.Print Verif.Html Verif.Item Verif.Types Verif.Opts Verif.Show Verif.Order Verif.Filter Verif.Dwarf Verif.Whole Verif.Web
  Verif.Namespace Verif.Range Verif.File Verif.Code

/-- From items for records to items for what they come from. -/
theorem itemFor {α β γ : Type} {cmpBy : β → γ → β → γ → Res Ordering} {h : γ} {R : β → Node → Prop} {l : List β}
    {ns : List Node} (hl : OnePer cmpBy h R l ns) (hn : l.Nodup) {g : α → β} {which : α → Prop}
    {shows : α → Node → Prop} (h1 : ∀ t ∈ l, ∃ x, g x = t ∧ which x) (h2 : ∀ x, which x → g x ∈ l)
    (h3 : ∀ x y, which x → which y → g x = g y → x = y) (h4 : ∀ x t, which x → R (g x) t → shows x t) :
    ItemFor which shows ns := by
  obtain ⟨order, ha, hb⟩ := hl
  obtain ⟨order', rfl, hq⟩ := pull (g := g) (Q := which) (order := order) fun t ht => h1 t (ha.perm.mem_iff.1 ht)
  have hn' := ha.perm.nodup_iff.2 hn
  refine ⟨order', ?_, fun x => ⟨hq x, fun hx => ?_⟩, ?_⟩
  · rw [List.nodup_iff_pairwise_ne] at hn' ⊢
    rw [List.pairwise_map] at hn'
    exact hn'.imp fun {a b} hab e => hab (by rw [e])
  · obtain ⟨y, hy, e⟩ := List.mem_map.1 (ha.perm.mem_iff.2 (h2 x hx))
    rw [← h3 y x (hq y hy) hx e]; exact hy
  · refine all2_weaken (fun x t ht => ?_) (all2_mem (all2_of_map hb))
    exact h4 x t (hq x ht.1) ht.2

theorem onePer_unwanted {α γ : Type} {cmpBy : α → γ → α → γ → Res Ordering} {h : γ} {R : α → Node → Prop} {b : Bool}
    {l : List α} {ns : List Node} (hl : OnePer cmpBy h R (ifWanted b l) ns) (hb : b = false) : ns = [] := by
  subst hb
  obtain ⟨order, ha, h⟩ := hl
  have : order = [] := ha.perm.eq_nil
  subst this
  cases h; rfl

theorem onePer_wanted {α γ : Type} {cmpBy : α → γ → α → γ → Res Ordering} {h : γ} {R : α → Node → Prop} {b : Bool}
    {l : List α} {ns : List Node} (hl : OnePer cmpBy h R (ifWanted b l) ns) (hb : b = true) : OnePer cmpBy h R l ns := by
  subst hb; exact hl

section
variable {search : Search} {n : Nat} {r : RawObject} {f : File} {k : Nat} {u : RawUnit} {cu : CompUnit}
  {code : Option Code} {disasm : List Nat → Nat → Option (List Insn)} {regName : Nat → Option Str} {ids : Nat → Nat}
  {fnId : Function → Nat} {varId : Variable → Nat} {unitId : CompUnit → Nat} {insns : Function → Option P}

/-- **C106 (entries).** The item of a unit of the debug information has, under the headings, one item for every wanted entry of
a type, function or variable, wherever in the unit it is, and no other; and the item says what the record of the entry says. -/
theorem C106_entries (hv : ValidSearch search) (h : parseObject search n r = some f) (hp : Placed r.units)
    (hk : r.units[k]? = some u) (hc : f.units[k]? = some cu) {o : Options} {s : FileSide} {b m : Nat}
    (hs : s = sideOf b r f code disasm regName ids fnId varId unitId insns) {mark : Mark} {x : Node}
    (hu : UnitItem mark o s m cu x) : EntriesShown mark o r s u cu x := by
  have hx : ∀ t, s.extra t = extraAt r.units s.hash ids t := by intro t; rw [hs]; rfl
  obtain ⟨t1, t2, t3, t4⟩ := C91_type_records hv h hp hk hc
  obtain ⟨f1, f2, f3, f4⟩ := C91_function_records hv h hp hk hc
  obtain ⟨v1, v2, v3, v4⟩ := C91_variable_records hv h hp hk hc
  obtain ⟨name, part, types, fns, inl, vars, e, hname, p0, p1, hty, hfn, hin, hva⟩ := hu
  have uniq : ∀ {ns d' g ns' d'' g'}, FnEntry u cu ns d' g → FnEntry u cu ns' d'' g' → g = g' →
      (ns, d', g) = (ns', d'', g') := by
    intro ns d' g ns' d'' g' hd hd' e
    subst e
    have a1 := List.find?_some hd.2
    have a2 := List.find?_some hd'.2
    simp only [decide_eq_true_eq] at a1 a2
    obtain ⟨rfl, rfl, -⟩ := f4 ns d' g ns' d'' g hd hd' (Option.some.inj (a1.symm.trans a2))
    rfl
  refine ⟨name, part, types, fns, inl, vars, e, hname, p0, p1, onePer_unwanted hty, fun hw => ?_,
    fun hw => ⟨onePer_unwanted hfn hw, onePer_unwanted hin hw⟩, fun hw => ⟨?_, ?_⟩, onePer_unwanted hva, fun hw => ?_⟩
  · refine itemFor (onePer_wanted hty hw) (wanted_nodup (nodup_of_map t1)) (g := fun x => typeAt r u cu x.1 x.2) ?_ ?_ ?_ ?_
    · intro t ht
      obtain ⟨ht, hwt⟩ := mem_wanted.1 ht
      obtain ⟨ns, d', hd, rfl⟩ := t3 t ht
      exact ⟨(ns, d'), rfl, hd, hwt⟩
    · rintro ⟨ns, d'⟩ ⟨hd, hwt⟩
      exact mem_wanted.2 ⟨t2 ns d' hd, hwt⟩
    · rintro ⟨ns, d'⟩ ⟨ns', d''⟩ ⟨hd, -⟩ ⟨hd', -⟩ e
      obtain ⟨rfl, rfl⟩ := t4 ns d' ns' d'' hd hd' (Option.some.inj (congrArg TypeEntry.offset e))
      rfl
    · rintro ⟨ns, d'⟩ t ⟨hd, -⟩ ⟨rows, g1, g2⟩
      refine ⟨rows, ?_, g2⟩
      have hex : s.extra (some d'.offset) = { typeExtra r.units s.hash d' with id := ids d'.offset } := by
        rw [hx]
        have hm : d' ∈ dies u.root := NamedType.mem hd
        simp only [extraAt, entryAt_eq hp hk hm]
      have g1 : TypeRows o s.toSide cu.dir (s.extra (some d'.offset)) _ rows := g1
      rw [hex] at g1
      exact TypeRows.id g1
  · refine itemFor (onePer_wanted hfn hw) ((wanted_nodup (nodup_of_map f1)).filter _) (g := fun x => x.2.2) ?_ ?_ ?_ ?_
    · intro g hg
      obtain ⟨hg, hsz⟩ := List.mem_filter.1 hg
      obtain ⟨hg, hwg⟩ := mem_wanted.1 hg
      obtain ⟨ns, d', hd⟩ := f3 g hg
      exact ⟨(ns, d', g), rfl, hd, hwg, Option.isSome_iff_ne_none.1 hsz⟩
    · rintro ⟨ns, d', g⟩ ⟨hd, hwg, hsz⟩
      exact List.mem_filter.2 ⟨mem_wanted.2 ⟨List.mem_of_find?_eq_some hd.2, hwg⟩, Option.isSome_iff_ne_none.2 hsz⟩
    · rintro ⟨ns, d', g⟩ ⟨ns', d'', g'⟩ ⟨hd, -⟩ ⟨hd', -⟩ e
      exact uniq hd hd' e
    · rintro ⟨ns, d', g⟩ t - ht
      exact ht
  · refine itemFor (onePer_wanted hin hw) ((wanted_nodup (nodup_of_map f1)).filter _) (g := fun x => x.2.2) ?_ ?_ ?_ ?_
    · intro g hg
      obtain ⟨hg, hsz⟩ := List.mem_filter.1 hg
      obtain ⟨hg, hwg⟩ := mem_wanted.1 hg
      obtain ⟨ns, d', hd⟩ := f3 g hg
      exact ⟨(ns, d', g), rfl, hd, hwg, by simpa using hsz⟩
    · rintro ⟨ns, d', g⟩ ⟨hd, hwg, hsz⟩
      exact List.mem_filter.2 ⟨mem_wanted.2 ⟨List.mem_of_find?_eq_some hd.2, hwg⟩, by simpa using hsz⟩
    · rintro ⟨ns, d', g⟩ ⟨ns', d'', g'⟩ ⟨hd, -⟩ ⟨hd', -⟩ e
      exact uniq hd hd' e
    · rintro ⟨ns, d', g⟩ t - ht
      exact ht
  · refine itemFor (onePer_wanted hva hw) (wanted_nodup (nodup_of_map v1)) (g := fun x => x.2.2) ?_ ?_ ?_ ?_
    · intro g hg
      obtain ⟨hg, hwg⟩ := mem_wanted.1 hg
      obtain ⟨ns, d', hd⟩ := v3 g hg
      exact ⟨(ns, d', g), rfl, hd, hwg⟩
    · rintro ⟨ns, d', g⟩ ⟨hd, hwg⟩
      exact mem_wanted.2 ⟨List.mem_of_find?_eq_some hd.2, hwg⟩
    · rintro ⟨ns, d', g⟩ ⟨ns', d'', g'⟩ ⟨hd, -⟩ ⟨hd', -⟩ e
      simp only at e
      subst e
      have a1 := List.find?_some hd.2
      have a2 := List.find?_some hd'.2
      simp only [decide_eq_true_eq] at a1 a2
      obtain ⟨rfl, rfl, -⟩ := v4 ns d' g ns' d'' g hd hd' (Option.some.inj (a1.symm.trans a2))
      rfl
    · rintro ⟨ns, d', g⟩ t - ht
      exact ht

theorem pair_up {α : Type} {R : α → Node → Prop} {l : List α} {ts : List Node} (h : All2 R l ts) :
    ∃ parts : List (α × Node), parts.map (·.2) = ts ∧ parts.map (·.1) = l ∧ ∀ a t, (a, t) ∈ parts → R a t := by
  induction h with
  | nil => exact ⟨[], rfl, rfl, by simp⟩
  | @cons a t as ts r _ ih =>
    obtain ⟨parts, h1, h2, h3⟩ := ih
    refine ⟨(a, t) :: parts, by simp [h1], by simp [h2], fun a' t' hm => ?_⟩
    rcases List.mem_cons.1 hm with e | hm
    · cases e; exact r
    · exact h3 a' t' hm

/-- **C106 (object page).** The page of an object file shows its units, and those of the debug information show their entries. -/
theorem C106_object (hv : ValidSearch search) (h : parseObject search n r = some f) (hp : Placed r.units) {o : Options}
    {s : FileSide} {b m : Nat} (hs : s = sideOf b r f code disasm regName ids fnId varId unitId insns) {ns : List Node}
    (hu : FilePage o s m ns) : ObjectPage o r s m ns := by
  obtain ⟨head, units, rfl, h0, h1, order, ha, hb⟩ := hu
  obtain ⟨parts, rfl, rfl, g⟩ := pair_up hb
  have hf : s.file = f := by rw [hs]; rfl
  refine ⟨head, parts, rfl, h0, h1, ha, fun cu x hx => ⟨g cu x hx, fun k u hk hc => ?_⟩⟩
  exact C106_entries hv h hp hk (hf ▸ hc) hs (g cu x hx)

end
end Verif.Page
