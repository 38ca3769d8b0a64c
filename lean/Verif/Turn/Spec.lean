import Verif.Show.AlignSpec
import Verif.Show.FileModel
import Verif.Show.FnSpec
import Verif.Print.Spec
/-!
# The two files exchanged

The diff of two files the other way round, and files in which what reads the same is the same.
-/
namespace Verif.Turn
open Verif.Print Verif.Item Verif.Namespace Verif.Types Verif.Layout Verif.Path Verif.Opts Verif.Merge Verif.Range
  Verif.File Verif.Show Verif.Order

/-- The options for the diff the other way round: what is added one way is deleted the other way. -/
def turnOptions (o : Options) : Options := { o with ignoreAdded := o.ignoreDeleted, ignoreDeleted := o.ignoreAdded }

/-- The two sides exchanged. -/
def turnPair (c : Pair) : Pair := ⟨c.b, c.a, fun x y => c.same y x, c.heap⟩

/-- The two files exchanged. -/
def turn (c : FilePair) : FilePair := ⟨c.b, c.a, fun x y => c.same y x, c.heap⟩

/-- The members of a type, with those of its variants. -/
def MemberOf : Ty → Member → Prop
  | .struct_ _ _ _ ms vps _, m => m ∈ ms ∨ ∃ vp ∈ vps, ∃ v ∈ vp.variants, m ∈ v.members
  | .union_ _ _ _ ms, m => m ∈ ms
  | _, _ => False

/-- The variants of a type. -/
def VariantOf : Ty → Variant → Prop
  | .struct_ _ _ _ _ vps _, v => ∃ vp ∈ vps, v ∈ vp.variants
  | _, _ => False

/-- The types of a file: those that can be referred to and those in the units. -/
def TypeOf (s : FileSide) (t : Ty) : Prop :=
  (∃ o, fromOffset s.hash o = some t) ∨ ∃ u ∈ s.file.units, ∃ x ∈ u.types, x.kind = t

/-- What reads the same on the two sides is the same: members whose lines are equal have the same name
and a type identified alike, variants whose lines are equal have the same name and discriminant,
enumerators whose lines are equal have the same name and value. -/
structure ReadAlike (c : Pair) (Ta Tb : Ty → Prop) : Prop where
  member : ∀ t u x y, Ta t → Tb u → MemberOf t x → MemberOf u y → (memberVal c.a x).text' = (memberVal c.b y).text' →
    x.name = y.name ∧ SameTy c x.ty y.ty
  variants : ∀ t u x y, Ta t → Tb u → VariantOf t x → VariantOf u y → (variantVal x).text' = (variantVal y).text' →
    x.name = y.name ∧ x.discrValue = y.discrValue
  enumerator : ∀ o p, ∀ x ∈ (c.a.extra o).enumerators, ∀ y ∈ (c.b.extra p).enumerators,
    (enumeratorVal x).text' = (enumeratorVal y).text' → x = y

/-- An inlined function somewhere inside a function. -/
inductive Inside (x : FunctionDetails) : InlinedFunction → Prop
  | top {i : InlinedFunction} : i ∈ x.inlined → Inside x i
  | deeper {i j : InlinedFunction} : Inside x j → i ∈ j.inlined → Inside x i

/-- The parameters of a function, with those of the functions inlined into it. -/
def ParamOf (x : FunctionDetails) (p : Parameter) : Prop := p ∈ x.parameters ∨ ∃ i, Inside x i ∧ p ∈ i.parameters

/-- The local variables of a function, with those of the functions inlined into it. -/
def LocalOf (x : FunctionDetails) (v : LocalVariable) : Prop := v ∈ x.variables ∨ ∃ i, Inside x i ∧ v ∈ i.variables

/-- The call sites of a function, with those of the functions inlined into it. -/
def SiteOf (x : FunctionDetails) (s : FunctionCall) : Prop := s ∈ x.calls ∨ ∃ i, Inside x i ∧ s ∈ i.calls

/-- Two call sites are alike: the same kind of call, at the same address, to the same function or the
same kind of place. -/
def SameSite (a b : FunctionCall) : Prop :=
  a.kind = b.kind ∧ a.callAddress = b.callAddress ∧ a.returnAddress = b.returnAddress ∧ originPoints a.origin b.origin = 0

/-- The registers that parameters and local variables of a function are in. -/
def RegOf (x : FunctionDetails) (r : Nat) : Prop :=
  (∃ p, ParamOf x p ∧ r ∈ (registers p.locations).map (·.2)) ∨ ∃ v, LocalOf x v ∧ r ∈ (registers v.locations).map (·.2)

/-- The places named at the call sites of a function: of the function called and of the parameters. -/
def PlaceOf (x : FunctionDetails) (l : Location) : Prop :=
  ∃ s, SiteOf x s ∧ ∃ p, p.location = l ∧
    (p ∈ s.target ∨ ∃ q ∈ s.parameters, p ∈ q.location ∨ p ∈ q.value ∨ p ∈ q.dataLocation ∨ p ∈ q.dataValue)

/-- No parameter or local variable of the function, or of anything inlined into it, is in two places
on the stack. -/
def OnePlace (x : FunctionDetails) : Prop :=
  (∀ p, ParamOf x p → OneLoc ((frameLocations p.locations).map (·.2))) ∧ ∀ v, LocalOf x v → OneLoc (localFrameLocations v.locations)

/-- If locations are asked for: registers and places of two functions that read the same are the same,
and no variable is in two places on the stack. -/
structure PlacesAlike (c : FnPair) (x y : FunctionDetails) : Prop where
  old : OnePlace x
  new : OnePlace y
  regs : ∀ r s, RegOf x r → RegOf y s → Code.regVal c.a.regName r = Code.regVal c.b.regName s → r = s
  places : ∀ l m, PlaceOf x l → PlaceOf y m → ∀ u v, locationVal c.a l = some u → locationVal c.b m = some v →
    u.text' = v.text' → l = m

/-- What reads the same in two functions is the same: parameters and local variables whose lines are
equal have the same name and a type identified alike; inlined functions whose lines (and places, if
shown) are equal are the same function inlined at the same place; call sites whose lines and return
addresses are equal are alike; and so for locations. `da` and `db` are the directories of the units. -/
structure FnReadAlike (o : Options) (c : FnPair) (da db : Option Str) (x y : FunctionDetails) : Prop where
  param : ∀ p q, ParamOf x p → ParamOf y q → (paramVal c.a p).text' = (paramVal c.b q).text' →
    p.name = q.name ∧ SameTy c.toPair p.ty q.ty
  locals : ∀ v w, LocalOf x v → LocalOf y w → (localVal c.a v).text' = (localVal c.b w).text' →
    v.name = w.name ∧ SameTy c.toPair v.ty w.ty
  inlined : ∀ i j, Inside x i → Inside y j → (inlinedVal c.a i).text' = (inlinedVal c.b j).text' →
    (o.printSource = true → (sourceVal da i.callSource).text' = (sourceVal db j.callSource).text') →
    SameFnOpt (c.a.fnAt i.origin) (c.b.fnAt j.origin) ∧ SamePlace da db i.callSource j.callSource
  places : o.printVariableLocations = true → PlacesAlike c x y
  sites : o.printFunctionCalls = true → ∀ s t, SiteOf x s → SiteOf y t → (callHeader c.a s).text' = (callHeader c.b t).text' →
    (addressVal s.returnAddress).text' = (addressVal t.returnAddress).text' → SameSite s t

/-- Calls found in the code of two functions that read the same go to functions that are the same, or
both to none that is known. -/
def CallsAlike (o : Options) (c : FnPair) (f g : Function) : Prop :=
  o.printFunctionCalls = true → ∀ la lb, fnCalls c.a f = some la → fnCalls c.b g = some lb → ∀ p ∈ la, ∀ q ∈ lb,
    (callVal o c.a p).text' = (callVal o c.b q).text' → SameFnOpt (c.a.fnByAddress p.2) (c.b.fnByAddress q.2)

/-- What reads the same in two files is the same, for what is asked for. -/
structure FilesReadAlike (o : Options) (c : FilePair) : Prop where
  types : o.categoryType = true → ReadAlike c.toFnPair.toPair (TypeOf c.a) (TypeOf c.b)
  functions : o.categoryFunction = true → ∀ u ∈ c.a.file.units, ∀ v ∈ c.b.file.units, ∀ f ∈ u.functions, ∀ g ∈ v.functions,
    FnReadAlike o c.toFnPair u.dir v.dir (c.a.details f) (c.b.details g) ∧ CallsAlike o c.toFnPair f g

/-- The two diffs are shown together and reported together. -/
def Together (o : Options) (e e' : D) : Prop := ∀ i x d,
  (e.lines (printOpts o) i x d = [] ↔ e'.lines (printOpts (turnOptions o)) i x d = []) ∧
  e.flag (printOpts o) i x d = e'.flag (printOpts (turnOptions o)) i x d

/-- An item of the merged list the other way round. -/
def Flipped {α : Type} : MergeResult α α → MergeResult α α → Prop
  | .left a, .right a' => a = a'
  | .right b, .left b' => b = b'
  | .both a b, .both b' a' => a = a' ∧ b = b'
  | _, _ => False

/-- The pairing of two lists of items the other way round: both fail, or the same items are paired,
in the same order. -/
def Mirrored {α : Type} (m m' : Option (List (MergeResult α α))) : Prop :=
  (m = none ∧ m' = none) ∨ ∃ l l', m = some l ∧ m' = some l' ∧ All2 Flipped l l'

end Verif.Turn
