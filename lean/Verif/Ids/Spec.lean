import Verif.Ids.Model
import Verif.Filter.Spec
/-! # Specification vocabulary for ids -/
namespace Verif.Ids
open Verif.Item Verif.Opts Verif.Types Verif.Filter

/-- The position designates an item of the file. -/
inductive ItemOf (us : List CompUnit) : Id → Prop
  | unit {i u} : us[i]? = some u → ItemOf us (.unit i)
  | type {i u j t} : us[i]? = some u → u.types[j]? = some t → ItemOf us (.type i j)
  | function {i u j f} : us[i]? = some u → u.functions[j]? = some f → ItemOf us (.function i j)
  | var {i u j v} : us[i]? = some u → u.variables[j]? = some v → ItemOf us (.var i j)

/-- The unit an item belongs to (itself for a unit). -/
inductive InUnit : Id → Nat → Prop
  | unit {i} : InUnit (.unit i) i
  | type {i j} : InUnit (.type i j) i
  | function {i j} : InUnit (.function i j) i
  | var {i j} : InUnit (.var i j) i

/-- The position designates a unit, or an item inside a unit, that the options select for
diffing. -/
inductive WantedAt (h : Hash) (o : Options) (us : List CompUnit) : Id → Prop
  | unit {i u} : us[i]? = some u → WantedUnit o u → WantedAt h o us (.unit i)
  | type {i u j t} : us[i]? = some u → u.types[j]? = some t → WantedType h u o true t →
      WantedAt h o us (.type i j)
  | function {i u j f} : us[i]? = some u → u.functions[j]? = some f → WantedFunction o f →
      WantedAt h o us (.function i j)
  | var {i u j v} : us[i]? = some u → u.variables[j]? = some v → WantedVariable o v →
      WantedAt h o us (.var i j)

/-- The two items are of the same sort and the comparison calls them equal. -/
inductive Matches (c : Cmps) (a b : List CompUnit) : Id → Id → Prop
  | unit {i j u v} : a[i]? = some u → b[j]? = some v → c.unit (.inl u) (.inr v) = .eq →
      Matches c a b (.unit i) (.unit j)
  | type {i j u v k l s t} : a[i]? = some u → b[j]? = some v → u.types[k]? = some s →
      v.types[l]? = some t → c.type (.inl s) (.inr t) = .eq →
      Matches c a b (.type i k) (.type j l)
  | function {i j u v k l s t} : a[i]? = some u → b[j]? = some v → u.functions[k]? = some s →
      v.functions[l]? = some t → c.function (.inl s) (.inr t) = .eq →
      Matches c a b (.function i k) (.function j l)
  | var {i j u v k l s t} : a[i]? = some u → b[j]? = some v → u.variables[k]? = some s →
      v.variables[l]? = some t → c.var (.inl s) (.inr t) = .eq →
      Matches c a b (.var i k) (.var j l)

end Verif.Ids
