import Verif.Dwarf.WalkModel
/-!
# Specification vocabulary for the contents of a unit

Which entries of the tree are functions, variables and types of the unit, in which scope, and which
specification references lead somewhere.
-/
namespace Verif.Dwarf
open Verif.Item Verif.Types Verif.Namespace Verif.Range Verif.Sentinel

/-- Entries inside a namespace, a struct or union, a function: types may be declared there. -/
def Ctx.general (ctx : Ctx) : Bool := ctx = .unit ∨ ctx = .type ∨ ctx = .union_ ∨ ctx = .func

/-- The kind of place the children of an entry are in; `none` if they do not matter. -/
def opens : Ctx → Tag → Option Ctx
  | .unit, .namespace_ => some .unit
  | .func, .lexicalBlock => some .func
  | .type, .variantPart => some .variantPart
  | .variantPart, .variant => some .variant
  | ctx, .structure_ => if ctx.general then some .type else none
  | ctx, .union_ => if ctx.general then some .union_ else none
  | ctx, .enumeration => if ctx.general then some .enum else none
  | _, _ => none

/-- The entry is a function: a subprogram in a namespace, type, function or block. -/
def IsFn (ctx : Ctx) (d : Die) : Prop := d.tag = .subprogram ∧ (ctx.general = true ∨ ctx = .enum)

/-- The entry is a variable: at namespace level, or a declared static member of a type. -/
def IsVar (ctx : Ctx) (d : Die) : Prop :=
  (d.tag = .variable ∧ ctx = .unit) ∨
  (d.tag = .member ∧ (ctx = .type ∨ ctx = .union_ ∨ ctx = .variantPart ∨ ctx = .variant) ∧ ∃ v, (At.declaration, v) ∈ d.attrs)

/-- The entry is a named type (or a base type). -/
def IsType (ctx : Ctx) (d : Die) : Prop :=
  ctx.general = true ∧ d.tag ∈ [Tag.baseType, .typedef, .structure_, .union_, .enumeration, .unspecified]

instance (ctx d) : Decidable (IsFn ctx d) := by unfold IsFn; infer_instance
instance (ctx d) : Decidable (IsType ctx d) := by unfold IsType; infer_instance
instance (d : Die) : Decidable (∃ v, (At.declaration, v) ∈ d.attrs) :=
  decidable_of_iff (d.attrs.any (fun av => av.1 = .declaration) = true) (by
    simp only [List.any_eq_true, decide_eq_true_eq, Prod.exists]
    constructor
    · rintro ⟨a, b, h, rfl⟩; exact ⟨b, h⟩
    · rintro ⟨v, h⟩; exact ⟨_, v, h, rfl⟩)
instance (ctx d) : Decidable (IsVar ctx d) := by
  unfold IsVar; infer_instance

/-- An item of the unit, by the offset of its entry. -/
inductive Item
  | fn (o : Nat)
  | var (o : Nat)
  | ty (o : Nat)
deriving DecidableEq, Repr

/-- What an entry itself is. -/
def ownItem (ctx : Ctx) (d : Die) : List Item :=
  (if IsFn ctx d then [.fn d.offset] else []) ++ (if IsVar ctx d then [.var d.offset] else []) ++
  (if IsType ctx d then [.ty d.offset] else [])

mutual
/-- All items of the tree below and including an entry. -/
def items : Ctx → Die → List Item
  | ctx, .node o tag attrs cs =>
    ownItem ctx (.node o tag attrs cs) ++
      (if IsFn ctx (.node o tag attrs cs) then itemsAll .func cs
       else match opens ctx tag with
        | some c => itemsAll c cs
        | none => [])
/-- All items of a list of entries. -/
def itemsAll : Ctx → List Die → List Item
  | _, [] => []
  | ctx, d :: ds => items ctx d ++ itemsAll ctx ds
end

/-- The specification of a function: the last `DW_AT_specification` or `DW_AT_abstract_origin` that
is a reference, and whether it was the latter. -/
def Die.spec (d : Die) : Option (Nat × Bool) :=
  d.attrs.foldl (fun s av =>
    match av with
    | (.specification, .ref o) => some (o, false)
    | (.abstractOrigin, .ref o) => some (o, true)
    | _ => s) none

/-- The scope of the children of an entry that is not a function. -/
def scopeNs (ns : Option Namespace) (d : Die) : Option Namespace :=
  match d.tag with
  | .namespace_ => newNs ns d.nameAttr .namespace_
  | .structure_ | .union_ | .enumeration => newNs ns d.nameAttr .type
  | _ => ns

/-- `InScope F root ctx ns ds`: the entries `ds`, in the tree `root`, are in a place of kind `ctx`
whose qualified scope is `ns`; the scope inside a function is given by its final record `F`. -/
inductive InScope (F : Nat → Option Function) (root : List Die) : Ctx → Option Namespace → List Die → Prop
  | root : InScope F root .unit none root
  | inside {ctx ns ds n c} : InScope F root ctx ns ds → n ∈ ds → opens ctx n.tag = some c →
      InScope F root c (scopeNs ns n) n.children
  | body {ctx ns ds d f} : InScope F root ctx ns ds → d ∈ ds → IsFn ctx d → F d.offset = some f →
      InScope F root .func (newNs f.ns f.name .function) d.children

/-- `Resolves root ctx ds none`: the entries `ds` are not inside a function whose specification leads
nowhere. `Resolves root ctx ds (some d)`: moreover `d` is a function among them, whose specification,
the specification of that, and so on, lead to a function without one. -/
inductive Resolves (root : List Die) : Ctx → List Die → Option Die → Prop
  | root : Resolves root .unit root none
  | inside {ctx ds n c} : Resolves root ctx ds none → n ∈ ds → opens ctx n.tag = some c → Resolves root c n.children none
  | plain {ctx ds d} : Resolves root ctx ds none → d ∈ ds → IsFn ctx d → d.spec = none → Resolves root ctx ds (some d)
  | refers {ctx ds d s a ctx' ds' d'} : Resolves root ctx ds none → d ∈ ds → IsFn ctx d → d.spec = some (s, a) →
      Resolves root ctx' ds' (some d') → d'.offset = s → Resolves root ctx ds (some d)
  | body {ctx ds d} : Resolves root ctx ds (some d) → Resolves root .func d.children none

/-- The entry `d` is a function of the unit, in scope `ns`. -/
def FnAt (F : Nat → Option Function) (root : List Die) (ns : Option Namespace) (d : Die) : Prop :=
  ∃ ctx ds, InScope F root ctx ns ds ∧ d ∈ ds ∧ IsFn ctx d

/-- The entry `d` is a variable of the unit, in scope `ns`. -/
def VarAt (F : Nat → Option Function) (root : List Die) (ns : Option Namespace) (d : Die) : Prop :=
  ∃ ctx ds, InScope F root ctx ns ds ∧ d ∈ ds ∧ IsVar ctx d

/-- The entry `d` is a named type of the unit, in scope `ns`. -/
def TypeAt (F : Nat → Option Function) (root : List Die) (ns : Option Namespace) (d : Die) : Prop :=
  ∃ ctx ds, InScope F root ctx ns ds ∧ d ∈ ds ∧ IsType ctx d

/-- The specification of the function `d` leads nowhere (or `d` is inside such a function). -/
def Unresolved (root : List Die) (d : Die) : Prop := ∀ ctx ds, ¬ Resolves root ctx ds (some d)

/-- The record `f` is the entry's own record `own`, completed from the record `g` of its
specification: the scope is that of `g`, what is missing comes from `g`, and so do the parameters
for an abstract origin, before the entry's own are added. -/
structure Completes (own g f : Function) (abstractOrigin : Bool) (d : Die) : Prop where
  ns : f.ns = g.ns
  name : f.name = own.name.or g.name
  linkageName : f.linkageName = own.linkageName.or g.linkageName
  source : f.source = if own.source.file.isSome then own.source else g.source
  returnType : f.returnType = own.returnType.or g.returnType
  parameters : f.parameters = addParams (if abstractOrigin then g.parameters else []) d.children
  rest : f.offset = own.offset ∧ f.address = own.address ∧ f.size = own.size ∧ f.ranges = own.ranges ∧
    f.inline = own.inline ∧ f.declaration = own.declaration ∧ f.symbolName = own.symbolName

/-- The record `f` is the entry's own record `own`, with the parameters among the children. -/
structure Stands (own f : Function) (d : Die) : Prop where
  parameters : f.parameters = addParams [] d.children
  rest : { f with parameters := [] } = { own with parameters := [] }

/-- How the record `f` of the function entry `d` is made from its own record `own` and the records
`F` of the unit. -/
def Made (F : Nat → Option Function) (root : List Die) (own : Function) (d : Die) (f : Function) : Prop :=
  (d.spec = none ∧ Stands own f d) ∨
  (∃ s a g, d.spec = some (s, a) ∧ F s = some g ∧ Completes own g f a d) ∨
  (d.spec ≠ none ∧ Unresolved root d ∧ Stands own f d)

/-- The record the unit lists at an offset. -/
def UnitItems.fn (u : UnitItems) (o : Nat) : Option Function := u.functions.find? fun f => f.offset = some o

/-- The variable the unit lists at an offset. -/
def UnitItems.var (u : UnitItems) (o : Nat) : Option Variable := u.variables.find? fun v => v.offset = some o

/-- The specification of a variable: the last `DW_AT_specification` that is a reference. Data members
have none. -/
def Die.varSpec (d : Die) : Option Nat :=
  if d.tag = .variable then
    d.attrs.foldl (fun s av =>
      match av with
      | (.specification, .ref o) => some o
      | _ => s) none
  else none

/-- `d` is a variable of the unit, and its specification, the specification of that, and so on, lead
to a variable without one. -/
inductive VarResolves (F : Nat → Option Function) (root : List Die) : Die → Prop
  | plain {ns d} : VarAt F root ns d → d.varSpec = none → VarResolves F root d
  | refers {ns d s d'} : VarAt F root ns d → d.varSpec = some s → VarResolves F root d' → d'.offset = s → VarResolves F root d

/-- The record `v` is `own` completed from the record `g`. -/
structure VarCompletes (own g v : Variable) : Prop where
  ns : v.ns = g.ns
  name : v.name = own.name.or g.name
  linkageName : v.linkageName = own.linkageName.or g.linkageName
  ty : v.ty = own.ty.or g.ty
  rest : v.offset = own.offset ∧ v.address = own.address ∧ v.size = own.size ∧ v.source = own.source ∧
    v.declaration = own.declaration ∧ v.symbolName = own.symbolName

/-- How the record of a variable is made. -/
def VarMade (V : Nat → Option Variable) (own : Variable) (d : Die) (v : Variable) : Prop :=
  (d.varSpec = none ∧ v = own) ∨ (∃ s g, d.varSpec = some s ∧ V s = some g ∧ VarCompletes own g v)

/-- The record of a named type. -/
def tyOf (env : Env) (ns : Option Namespace) (d : Die) : Ty :=
  match d.tag with
  | .baseType => .base d.nameAttr (d.sizeAttr Opt64.none)
  | .typedef => .def_ ns d.nameAttr d.typeAttr
  | .structure_ => ownStruct env ns d
  | .union_ => ownUnion env ns d
  | .enumeration => ownEnum ns d
  | _ => .unspecified ns d.nameAttr

end Verif.Dwarf
