import Verif.Model.Utils

/-!
# `punx/h5tree.py`: the tree report
-/

namespace Punx

/-- Settings of a report: `self.isNeXus`, `self.show_attributes`, `self.array_items_shown`
(`punx/h5tree.py:45-53`; simplification: the last one is a number, not `None`). -/
structure TreeCfg where
  env : Env
  isNeXus : Bool
  showAttrs : Bool
  shown : Int

/-- What a line of the report shows.  Not in the code, which only has the text; used to state
properties. -/
inductive LineTag
  | header | array | attr
  deriving DecidableEq, Repr

/-- A line of the report. -/
structure TLine where
  tag : LineTag
  text : Str
  deriving DecidableEq, Repr

/-- `punx/h5tree.py:178-185`: `_renderSingleAttribute`. -/
def renderAttr (env : Env) (indent name : Str) (v : Val) : Except PyErr TLine := do
  let d ← decodeByteString env v
  let text := match d with
    | .list xs => s%"[\"" ++ join s%"\", \"" xs ++ s%"\"]"
    | .str s => '"' :: s ++ s%"\""
    | d => pyStr env d
  .ok ⟨.attr, indent ++ s%"  @" ++ name ++ s%" = " ++ text⟩

/-- Apply a function that may raise to each element, in order. -/
def mapE {α β : Type} (f : α → Except PyErr β) : List α → Except PyErr (List β)
  | [] => .ok []
  | a :: as =>
    match f a with
    | .error e => .error e
    | .ok b =>
      match mapE f as with
      | .error e => .error e
      | .ok bs => .ok (b :: bs)

/-- `punx/h5tree.py:187-196`: `_renderAttributes`. -/
def renderAttrs (c : TreeCfg) (indent : Str) (attrs extra : List (Str × Val)) :
    Except PyErr (List TLine) :=
  if c.showAttrs then mapE (fun a => renderAttr c.env indent a.1 a.2) (attrs ++ extra) else .ok []

/-- `punx/h5tree.py:104-111`: the text for NX_class.  Empty arrays: adding an array to a text
does not give a text (simplification: `TypeError`). -/
def nxClassText (env : Env) (attrs : List (Str × Val)) : Except PyErr Str :=
  let colon : Val → Except PyErr Str := fun v =>
    match decodeByteString env v with
    | .error e => .error e
    | .ok (.str s) => .ok (':' :: s)
    | .ok _ => .error .typeError
  match attrGet attrs s%"NX_class" with
  | none => .ok []
  | some (.str s) => if s.length > 0 then .ok (':' :: s) else .ok []
  | some (.bytes b) => if b.length > 0 then colon (.bytes b) else .error .typeError
  | some (.arrO (x :: _)) => colon (.str x)
  | some (.arrS (x :: _)) => colon (.bytes x)
  | some _ => .error .typeError

/-- `punx/h5tree.py:198-203`: `_renderLinkedObject`. -/
def renderLinked (c : TreeCfg) (attrs : List (Str × Val)) (name indent : Str) :
    Except PyErr (List TLine) :=
  match attrGet attrs s%"target" with
  | none => .error .keyError
  | some v => do
    let t ← decodeByteString c.env v
    .ok [⟨.header, indent ++ name ++ s%" --> " ++ pyStr c.env t⟩]

/-- `str.upper()` for ASCII text (names of numpy types). -/
def asciiUpper (s : Str) : Str := s.map Char.toUpper

/-- `punx/h5tree.py:267-280`: `_renderDsType`. -/
def renderDsType (c : TreeCfg) (d : DataInfo) : Except PyErr Str :=
  let t : Except PyErr Str := match d.kind with
    | .S =>
      match d.shape with
      | none => .error .typeError
      | some [] => .ok s%"CHAR"
      | some (_ :: _) => .ok (s%"char[" ++ join s%"," (d.itemsizes.map natStr) ++ s%"]")
    | .O => .ok s%"CHAR"
    | .other => .ok d.dtype
  match t with
  | .error e => .error e
  | .ok t => .ok (if c.isNeXus then s%"NX_" ++ asciiUpper t else t)

/-- `punx/h5tree.py:282-292`: `_renderDsShape`. -/
def renderDsShape (d : DataInfo) : Except PyErr Str :=
  match d.shape with
  | none => .error .typeError
  | some [1] => .ok []
  | some s => .ok ('[' :: join s%"," (s.map natStr) ++ s%"]")

/-- `punx/h5tree.py:302-307`: `_decideNumShown`; called if more than 2 items are shown. -/
def decideNumShown (shown : Nat) (n : Nat) : Nat := if n > shown then shown - 2 else n

/-- `punx/h5tree.py:309-347`: `_renderNdArray` for the part of the array at the index `pre`
with this shape.  A failing read (`OSError`) is not modelled. -/
def renderNd (shown : Nat) (cell : List Nat → Str) (indent : Str) (pre : List Nat) :
    List Nat → Str
  | [] => s%"None"
  | dim :: rest =>
    let rank := rest.length + 1
    let n := decideNumShown shown dim
    let item : Nat → Str := fun i =>
      if rank = 1 then cell (pre ++ [i])
      else if rank < 4 then renderNd shown cell (indent ++ s%"    ") (pre ++ [i]) rest
      else s%"rank=" ++ natStr (rank - 1)
    let dots : Str := if rank = 1 then s%"'...'" else s%"..."
    let r := (List.range n).map item ++ (if n < dim then [dots, item (dim - 1)] else [])
    if rank = 1 then '[' :: join s%", " r ++ s%"]"
    else s%"[\n" ++ indent ++ s%"  " ++ join ('\n' :: indent ++ s%"  ") r ++ '\n' :: indent ++ s%"]"

/-- `punx/h5tree.py:219`: `dset[()]` has elements that are arrays. -/
def hasRows (d : DataInfo) : Bool :=
  match d.shape with
  | some (n :: _ :: _) => n ≠ 0
  | _ => false

/-- `punx/h5tree.py:217-226`: the value of a fixed length string dataset. -/
def renderStrings (env : Env) (d : DataInfo) : Except PyErr Str :=
  let quoted : List UInt8 → Except PyErr Str := fun b =>
    match env.dec b with
    | some s => .ok ('"' :: s ++ s%"\"")
    | none => .error .unicodeDecodeError
  match d.value with
  | .arrS xs =>
    if hasRows d then .error .typeError     -- `'"' + list`, `'"' + None`
    else do
      let ss ← mapE quoted xs
      .ok (if ss.length > 1 then s%" = [" ++ join s%", " ss ++ s%"]" else s%" = " ++ join s%", " ss)
  | v => do
    let t ← decodeByteString env v
    .ok (s%" = " ++ pyStr env t)

/-- `punx/h5tree.py:209-213`: a dataset of a NeXus file with a `target` is shown as a link.
Comparing an array of numbers with text: as for `isNeXusLink`. -/
def renderAsLink (c : TreeCfg) (name : Str) (attrs : List (Str × Val)) : Except PyErr Bool :=
  if c.isNeXus then
    match attrGet attrs s%"target" with
    | none => .ok false
    | some v => do
      match ← decodeByteString c.env v with
      | .str s => .ok (s ≠ name)
      | .arrNum xs => if xs.length = 1 then .ok true else .error .valueError
      | _ => .ok true
  else .ok false

/-- `punx/h5tree.py:214-263`: the lines of a dataset before its attributes. -/
def renderData (c : TreeCfg) (d : DataInfo) (name indent : Str) : Except PyErr (List TLine) := do
  let txType ← renderDsType c d
  let txShape ← renderDsShape d
  match d.kind, d.shape with
  | .S, _ => do
    let value ← renderStrings c.env d
    .ok [⟨.header, indent ++ name ++ ':' :: txType ++ value⟩]
  | .O, _ => .ok [⟨.header, indent ++ name ++ ':' :: txType ++ s%" = " ++ d.text⟩]
  | .other, some [1] =>
    .ok [⟨.header, indent ++ name ++ ':' :: txType ++ txShape ++ s%" = " ++ d.first⟩]
  | .other, none => .error .typeError
  | .other, some shape =>
    if c.shown > 2 then
      -- `_renderArray`, punx/h5tree.py:294-300
      let value := match shape with
        | [] => []
        | _ => renderNd c.shown.toNat d.cell (indent ++ s%"    ") [] shape
      if shape.length < 2 then
        .ok [⟨.header, indent ++ name ++ ':' :: txType ++ txShape ++ s%" = " ++ value⟩]
      else
        .ok [⟨.header, indent ++ name ++ ':' :: txType ++ txShape ++ s%" = __array"⟩,
             ⟨.array, indent ++ s%"  __array = " ++ value⟩]
    else .ok [⟨.header, indent ++ name ++ ':' :: txType ++ txShape ++ s%" = [ ... ]"⟩]

/-- `punx/h5tree.py:205-265`: `_renderDataset`. -/
def renderDataset (c : TreeCfg) (oname : Str) (attrs : List (Str × Val)) (d : DataInfo)
    (name indent : Str) : Except PyErr (List TLine) := do
  if ← renderAsLink c oname attrs then renderLinked c attrs name indent
  else do
    let s ← renderData c d name indent
    let a ← renderAttrs c indent attrs []
    .ok (s ++ a)

/-- File and path of an external link, as attributes. -/
def externalAttrs : LinkKind → List (Str × Val)
  | .external file path _ => [(s%"file", .str file), (s%"path", .str path)]
  | _ => []

/-- A rendered member of a group: shown with the groups, or before. -/
structure Member where
  name : Str
  isGroup : Bool
  out : Except PyErr (List TLine)

/-- `punx/h5tree.py:139-148`: a link that is not followed. -/
def renderUnfollowed (c : TreeCfg) (link : Str) (kind : LinkKind) (indent : Str) :
    Except PyErr (List TLine) :=
  match kind with
  | .soft path => .ok [⟨.header, indent ++ s%"  " ++ link ++ s%": --> " ++ path⟩]
  | _ => do
    let a ← renderAttrs c (indent ++ s%"  ") (externalAttrs kind) []
    .ok (⟨.header, indent ++ s%"  " ++ link ++ s%": missing external file"⟩ :: a)

/-- `punx/h5tree.py:121-137`: is the link followed (`classref` is not `None`)? -/
def followed : LinkKind → Bool
  | .soft _ => false
  | .external _ _ fileExists => fileExists
  | .hard => true

/-- All outputs, one after the other. -/
def concatE : List (Except PyErr (List TLine)) → Except PyErr (List TLine)
  | [] => .ok []
  | .error e :: _ => .error e
  | .ok l :: rest =>
    match concatE rest with
    | .error e => .error e
    | .ok ls => .ok (l ++ ls)

/-- `punx/h5tree.py:118-176`: the members in sorted order, those shown as groups last. -/
def assemble (ms : List Member) : Except PyErr (List TLine) :=
  let sorted := sortBy (fun a b => strLe a.name b.name) ms
  concatE ((sorted.filter (fun m => !m.isGroup)).map Member.out ++
    (sorted.filter (fun m => m.isGroup)).map Member.out)

/-- `punx/h5tree.py:103-116`: header and attributes of a group. -/
def renderHead (c : TreeCfg) (attrs : List (Str × Val)) (name indent : Str) (kind : LinkKind) :
    Except PyErr (List TLine) := do
  let cls ← nxClassText c.env attrs
  let a ← renderAttrs c indent attrs (externalAttrs kind)
  .ok (⟨.header, indent ++ name ++ cls⟩ :: a)

mutual
/-- `punx/h5tree.py:149-174`: a member whose link is followed. -/
def renderMember (c : TreeCfg) (link : Str) (kind : LinkKind) (indent : Str) : Node → Member
  | .group oname attrs kids =>
    match isNeXusLink c.env attrs oname with
    | .error e => ⟨link, false, .error e⟩
    | .ok true => ⟨link, false, renderLinked c attrs link (indent ++ s%"  ")⟩
    | .ok false => ⟨link, true, do
        let h ← renderHead c attrs link (indent ++ s%"  ") kind
        let m ← assemble (renderMembers c (indent ++ s%"  ") kids)
        .ok (h ++ m)⟩
  | .dataset oname attrs d =>
    match isNeXusLink c.env attrs oname with
    | .error e => ⟨link, false, .error e⟩
    | .ok true => ⟨link, false, renderLinked c attrs link (indent ++ s%"  ")⟩
    | .ok false => ⟨link, false, do
        let s ← renderDataset c oname attrs d link (indent ++ s%"  ")
        let a ← renderAttrs c (indent ++ s%"  ") (externalAttrs kind) []
        .ok (s ++ a)⟩
  | .datatype oname attrs =>
    match isNeXusLink c.env attrs oname with
    | .error e => ⟨link, false, .error e⟩
    | .ok true => ⟨link, false, renderLinked c attrs link (indent ++ s%"  ")⟩
    | .ok false => ⟨link, false, .error .exception⟩
/-- The members of a group, in file order. -/
def renderMembers (c : TreeCfg) (indent : Str) : Kids → List Member
  | .nil => []
  | .cons link kind n rest =>
    (if followed kind then renderMember c link kind indent n
      else ⟨link, false, renderUnfollowed c link kind indent⟩) :: renderMembers c indent rest
  | .broken link kind rest =>
    ⟨link, false, renderUnfollowed c link kind indent⟩ :: renderMembers c indent rest
end

/-- `punx/h5tree.py:80-88`: `report` of an open file. -/
def renderFile (c : TreeCfg) (fname : Str) (f : H5File) : Except PyErr (List TLine) := do
  let txt := if c.isNeXus then fname ++ s%" : NeXus data file" else fname
  let h ← renderHead c f.attrs txt [] .hard
  let m ← assemble (renderMembers c [] f.kids)
  .ok (h ++ m)

/-- `punx/h5tree.py:49-88`: `Hdf5TreeView(filename).report(show_attributes)`: `None` if there is
no such file. -/
def treeReport (env : Env) (shown : Int) (showAttrs : Bool) (fname : Str) (fs : FileState) :
    Except PyErr (Option (List Str)) :=
  match fs with
  | .missing => .ok none
  | .notHdf5 => .error .osError
  | .hdf5 f =>
    match isNeXusFile env (.hdf5 f) with
    | .error e => .error e
    | .ok b =>
      match renderFile ⟨env, b.getD false, showAttrs, shown⟩ fname f with
      | .error e => .error e
      | .ok ls => .ok (some (ls.map TLine.text))

end Punx
