import Mathlib.Data.List.Forall2
import Verif.Spec.Utils
import Verif.Model.H5Tree

/-!
# Specification vocabulary for the tree report

The outline of a file: one entry for each member of each group that is shown, with its depth,
what it is and the attributes to be shown.
-/

namespace Punx.Spec

/-- What an entry of the outline is. -/
inductive What
  /-- a group with these attributes -/
  | group (attrs : List (Str × Val))
  /-- a dataset (of a NeXus file) -/
  | dataset (isNeXus : Bool) (data : DataInfo)
  /-- a soft link to a path -/
  | soft (path : Str)
  /-- an external link that cannot be followed -/
  | missing
  /-- an object that is shown as link to its target -/
  | link (target : Val)

/-- An entry of the outline. -/
structure TreeEntry where
  depth : Nat
  name : Str
  what : What
  /-- attributes and location to be shown -/
  attrs : List (Str × Val)

/-- Spaces for a depth. -/
def spaces (depth : Nat) : Str := List.replicate (2 * depth) ' '

/-- The text for the class of a group. -/
def ClassTail (env : Env) (attrs : List (Str × Val)) (tail : Str) : Prop :=
  ((attrs.lookup s%"NX_class" = none ∨ attrs.lookup s%"NX_class" = some (.str [])) ∧ tail = []) ∨
  ∃ v s, attrs.lookup s%"NX_class" = some v ∧ v ≠ .str [] ∧ FirstText env v s ∧ tail = ':' :: s

/-- The text of a link target. -/
def TargetText (env : Env) (v : Val) (t : Str) : Prop :=
  (∀ s, TextOf env v s → t = s) ∧
  ∃ d, decodeByteString env v = .ok d ∧ t = pyStr env d

/-- The type and the shape of a dataset: strings have no shape, a shape (1,) is not shown, and in NeXus
files the types are called like those of NeXus. -/
def shownType (isNeXus : Bool) (d : DataInfo) : Str :=
  let base := match d.kind, d.shape with
    | .S, some [] => s%"CHAR"
    | .S, _ => s%"char[" ++ join s%"," (d.itemsizes.map natStr) ++ s%"]"
    | .O, _ => s%"CHAR"
    | .other, _ => d.dtype
  (if isNeXus then s%"NX_" ++ base.map Char.toUpper else base) ++
    match d.kind, d.shape with
    | .other, some [1] => []
    | .other, some s => '[' :: join s%"," (s.map natStr) ++ s%"]"
    | _, _ => []

/-- The line shows the entry. -/
def ShowsHeader (env : Env) (text : Str) (e : TreeEntry) : Prop :=
  ∃ tail, text = spaces e.depth ++ e.name ++ tail ∧
    match e.what with
    | .group attrs => ClassTail env attrs tail
    | .dataset isNeXus d => ∃ s, tail = ':' :: shownType isNeXus d ++ s%" = " ++ s
    | .soft path => tail = s%": --> " ++ path
    | .missing => tail = s%": missing external file"
    | .link v => ∃ t, TargetText env v t ∧ tail = s%" --> " ++ t

/-- The text of an attribute value. -/
def ValueText (env : Env) (v : Val) (t : Str) : Prop :=
  (∃ s, TextOf env v s ∧ t = '"' :: s ++ s%"\"") ∨
  (∃ xs, (v = .list xs ∨ xs ≠ [] ∧ (v = .arrO xs ∨
      ∃ bs, v = .arrS bs ∧ List.Forall₂ (fun b s => Ascii s ∧ utf8Encode s = b) bs xs)) ∧
    t = s%"[\"" ++ join s%"\", \"" xs ++ s%"\"]") ∨
  ((v = .arrO [] ∨ v = .arrS []) ∧ t = env.str .none) ∨
  (NotStrings v ∧ (∀ s, v ≠ .str s) ∧ (∀ xs, v ≠ .list xs) ∧ t = pyStr env v)

/-- The line shows the attribute of an entry at this depth. -/
def ShowsAttr (env : Env) (depth : Nat) (l : TLine) (a : Str × Val) : Prop :=
  l.tag = .attr ∧ ∃ t, ValueText env a.2 t ∧
    l.text = spaces depth ++ s%"  @" ++ a.1 ++ s%" = " ++ t

/-- The lines show the entry: a header, perhaps the values of an array, then the attributes if
they are wanted. -/
def ShowsEntry (env : Env) (showAttrs : Bool) (ls : List TLine) (e : TreeEntry) : Prop :=
  ∃ h arr as, ls = h :: arr ++ as ∧ h.tag = .header ∧ ShowsHeader env h.text e ∧
    arr.length ≤ 1 ∧ (∀ l ∈ arr, l.tag = .array ∧ (∃ s, l.text = spaces e.depth ++ s%"  __array = " ++ s) ∧
      ∃ isNeXus d, e.what = .dataset isNeXus d) ∧
    if showAttrs then List.Forall₂ (ShowsAttr env e.depth) as e.attrs else as = []

/-- The lines show these entries one after the other. -/
def ShowsAll (env : Env) (showAttrs : Bool) (ls : List TLine) (es : List TreeEntry) : Prop :=
  ∃ blocks, ls = blocks.flatten ∧ List.Forall₂ (ShowsEntry env showAttrs) blocks es

/-- The object has an attribute `target` with a value, other than its own name. -/
def NexusLink (env : Env) (attrs : List (Str × Val)) (oname : Str) : Prop :=
  ∃ v, attrs.lookup s%"target" = some v ∧ ¬ TextOf env v oname ∧
    ¬ (TextOf env v [] ∨ v = .arrNum [] ∨ v = .list [])

/-- Any attribute `target` other than its own name (in NeXus files). -/
def AnyTarget (env : Env) (attrs : List (Str × Val)) (oname : Str) : Prop :=
  ∃ v, attrs.lookup s%"target" = some v ∧ ¬ TextOf env v oname

/-- File and path of an external link. -/
def location : LinkKind → List (Str × Val)
  | .external file path _ => [(s%"file", .str file), (s%"path", .str path)]
  | _ => []

/-- A member of a group: its name, whether it is shown as a group, its entries. -/
structure Outlined where
  name : Str
  isGroup : Bool
  entries : List TreeEntry

/-- Members in alphabetical order, groups last. -/
def arrange (ms : List Outlined) : List TreeEntry :=
  let sorted := sortBy (fun a b => strLe a.name b.name) ms
  (sorted.filter (fun m => !m.isGroup)).flatMap Outlined.entries ++
    (sorted.filter (fun m => m.isGroup)).flatMap Outlined.entries

/-- A link that is not followed. -/
def unfollowedEntry (d : Nat) (link : Str) : LinkKind → TreeEntry
  | .soft path => ⟨d, link, .soft path, []⟩
  | k => ⟨d, link, .missing, location k⟩

open Classical in
mutual
/-- Entries of a member (at depth `d`) whose link is followed. -/
noncomputable def outlineMember (env : Env) (isNeXus : Bool) (d : Nat) (link : Str)
    (kind : LinkKind) : Node → Outlined
  | .group oname attrs kids =>
    if NexusLink env attrs oname then
      ⟨link, false, [⟨d, link, .link ((attrs.lookup s%"target").getD .none), []⟩]⟩
    else ⟨link, true, ⟨d, link, .group attrs, attrs ++ location kind⟩ ::
      arrange (outlineMembers env isNeXus (d + 1) kids)⟩
  | .dataset oname attrs data =>
    if NexusLink env attrs oname then
      ⟨link, false, [⟨d, link, .link ((attrs.lookup s%"target").getD .none), []⟩]⟩
    else if isNeXus = true ∧ AnyTarget env attrs oname then
      ⟨link, false, [⟨d, link, .link ((attrs.lookup s%"target").getD .none), location kind⟩]⟩
    else ⟨link, false, [⟨d, link, .dataset isNeXus data, attrs ++ location kind⟩]⟩
  | .datatype _ attrs =>
    ⟨link, false, [⟨d, link, .link ((attrs.lookup s%"target").getD .none), []⟩]⟩
/-- The members of a group whose members are at depth `d`. -/
noncomputable def outlineMembers (env : Env) (isNeXus : Bool) (d : Nat) : Kids → List Outlined
  | .nil => []
  | .cons link kind n rest =>
    (if followed kind then outlineMember env isNeXus d link kind n
      else ⟨link, false, [unfollowedEntry d link kind]⟩) :: outlineMembers env isNeXus d rest
  | .broken link kind rest =>
    ⟨link, false, [unfollowedEntry d link kind]⟩ :: outlineMembers env isNeXus d rest
end

/-- The outline of a file. -/
noncomputable def outlineFile (env : Env) (isNeXus : Bool) (title : Str) (f : H5File) :
    List TreeEntry :=
  ⟨0, title, .group f.attrs, f.attrs⟩ :: arrange (outlineMembers env isNeXus 1 f.kids)

open Classical in
mutual
/-- Entries of a member and everything below, in the order of the file. -/
noncomputable def listMember (env : Env) (isNeXus : Bool) (d : Nat) (link : Str)
    (kind : LinkKind) : Node → List TreeEntry
  | .group oname attrs kids =>
    if NexusLink env attrs oname then
      [⟨d, link, .link ((attrs.lookup s%"target").getD .none), []⟩]
    else ⟨d, link, .group attrs, attrs ++ location kind⟩ :: listMembers env isNeXus (d + 1) kids
  | n => (outlineMember env isNeXus d link kind n).entries
/-- All members of a group and everything below, in the order of the file. -/
noncomputable def listMembers (env : Env) (isNeXus : Bool) (d : Nat) : Kids → List TreeEntry
  | .nil => []
  | .cons link kind n rest =>
    (if followed kind then listMember env isNeXus d link kind n
      else [unfollowedEntry d link kind]) ++ listMembers env isNeXus d rest
  | .broken link kind rest => unfollowedEntry d link kind :: listMembers env isNeXus d rest
end

mutual
/-- The object without the links below it that are not followed. -/
def pruneNode : Node → Node
  | .group oname attrs kids => .group oname attrs (pruneKids kids)
  | n => n
/-- The members without the links that are not followed. -/
def pruneKids : Kids → Kids
  | .nil => .nil
  | .cons link kind n rest =>
    if followed kind then .cons link kind (pruneNode n) (pruneKids rest) else pruneKids rest
  | .broken _ _ rest => pruneKids rest
end

/-- The file without soft links and without external links that cannot be followed. -/
def pruneFile (f : H5File) : H5File := { f with kids := pruneKids f.kids }

/-- The entries shown of `n` items if at most `m` are shown; `none`: an ellipsis. -/
def shownEntries (m n : Nat) : List (Option Nat) :=
  if n ≤ m then (List.range n).map some
  else (List.range (m - 2)).map some ++ [none, some (n - 1)]

end Punx.Spec
