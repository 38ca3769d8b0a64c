import Verif.Num
import Verif.Bloat.Model
/-!
# Model of the HTTP request handlers (main/src/main.rs:565-723)

Not modelled: the network, the async runtime, and the bytes of the HTML. A response body is
described by what it displays.
-/
namespace Verif.Serve
open Verif.Item Verif.Ids Verif.Bloat

/-- `path.split('/')` collected (library; called at main/src/main.rs:716): the pieces between the
slashes, at least one. -/
def splitSlash : Str → List Str
  | [] => [[]]
  | c :: cs =>
    if c = 47 then [] :: splitSlash cs
    else match splitSlash cs with
      | [] => [[c]]
      | p :: ps => (c :: p) :: ps

/-- The segment names the handlers look for (main/src/main.rs:574, 587, 617, 626, 642, 671, 685). -/
def idSeg : Str := [105, 100]
/-- `"parent"` (main/src/main.rs:642). -/
def parentSeg : Str := [112, 97, 114, 101, 110, 116]

/-- A response body. -/
inductive Body
  | empty
  | panic
  | page
  | item (s : Shown)
  | number (n : Nat)
  | diff (d : DiffShown)
  | callers (p : Print.P)

/-- The routing part of `serve` (main/src/main.rs:711-719): a handler gets the segments after the
first slash. -/
def serve (handler : List Str → Body) (path : Str) : Body :=
  let path := if path = [] then [47] else path
  if path.head? = some 47 then handler (splitSlash path).tail else .empty

/-- `path.next().and_then(|id| str::parse::<usize>(id).ok())`
(main/src/main.rs:588, 627, 686). -/
def nextId : List Str → Option Nat
  | [] => none
  | s :: _ => parseUsize s

/-- `serve_diff_file` (main/src/main.rs:572-607). -/
def serveDiffFile (a b : List CompUnit) (ids : List (Id × Id)) : List Str → Body
  | [] => .empty
  | s :: rest =>
    if s = [] then .page
    else if s = idSeg then
      match nextId rest with
      | none => .empty
      | some n =>
        match rest.tail with
        | [] =>
          match diffId a b ids n with
          | .panic => .panic
          | .nothing => .empty
          | d => .diff d
        | _ => .empty
    else .empty

/-- `serve_print_file` (main/src/main.rs:615-661). -/
def servePrintFile (us : List CompUnit) (s : Assigned) : List Str → Body
  | [] => .empty
  | seg :: rest =>
    if seg = [] then .page
    else if seg = idSeg then
      match nextId rest with
      | none => .empty
      | some n =>
        match rest.tail with
        | [] => match printId us s.ids n none with
          | some x => .item x
          | none => .empty
        | d :: _ =>
          if d = parentSeg then
            match printParent us s n with
            | some m => .number m
            | none => .empty
          else match printId us s.ids n (some d) with
            | some x => .item x
            | none => .empty
    else .empty

/-- `serve_bloat_file` (main/src/main.rs:669-698). The page panics if `bloat` does. -/
def serveBloatFile (us : List CompUnit) (store : Id → Nat) (idx : Bloat.Index) : List Str → Body
  | [] => .empty
  | s :: rest =>
    if s = [] then
      match bloat us store idx with
      | some _ => .page
      | none => .panic
    else if s = idSeg then
      match nextId rest with
      | none => .empty
      | some n =>
        match bloatId us store idx n with
        | .panic => .panic
        | .nothing => .empty
        | .shown p => .callers p
    else .empty

end Verif.Serve
