import Verif.Spec.NxdlSchema
import Verif.Lemmas.Basic

/-!
# C78: the layout of a schema
-/

namespace Punx
open Spec

/-! ## nodes without lines -/

theorem withoutLinesOf_eq (ns : List XsNode) : withoutLinesOf ns = ns.map withoutLines := by
  induction ns with
  | nil => rfl
  | cons n ns ih => rw [withoutLinesOf, ih, List.map_cons]

@[simp] theorem isXs_withoutLines (t : Str) (n : XsNode) :
    (withoutLines n).isXs t = n.isXs t := by
  cases n <;> rfl

@[simp] theorem attrib_withoutLines (n : XsNode) : (withoutLines n).attrib = n.attrib := by
  cases n <;> rfl

@[simp] theorem kids_withoutLines (n : XsNode) :
    (withoutLines n).kids = n.kids.map withoutLines := by
  cases n with
  | comment => rfl
  | elem xs t l a k => exact withoutLinesOf_eq k

theorem filter_withoutLines (t : Str) (ns : List XsNode) :
    (ns.map withoutLines).filter (XsNode.isXs t) = (ns.filter (XsNode.isXs t)).map withoutLines := by
  rw [List.filter_map]
  congr 1
  exact List.filter_congr fun n _ => isXs_withoutLines t n

@[simp] theorem select_withoutLines (t : Str) (n : XsNode) :
    (withoutLines n).select t = (n.select t).map withoutLines := by
  rw [XsNode.select, kids_withoutLines, filter_withoutLines]
  rfl

mutual
theorem nodes_withoutLines : (n : XsNode) → (withoutLines n).nodes = n.nodes.map withoutLines
  | .comment => rfl
  | .elem xs t l a k => by
    rw [withoutLines, XsNode.nodes, XsNode.nodes, nodesOf_withoutLines k]
    rfl
theorem nodesOf_withoutLines : (ns : List XsNode) →
    XsNode.nodesOf (withoutLinesOf ns) = (XsNode.nodesOf ns).map withoutLines
  | [] => rfl
  | n :: ns => by
    rw [withoutLinesOf, XsNode.nodesOf, XsNode.nodesOf, nodes_withoutLines n,
      nodesOf_withoutLines ns, List.map_append]
end

@[simp] theorem everywhere_withoutLines (t : Str) (n : XsNode) :
    (withoutLines n).everywhere t = (n.everywhere t).map withoutLines := by
  rw [XsNode.everywhere, nodes_withoutLines, filter_withoutLines]
  rfl

theorem flatMap_select (t : Str) (ns : List XsNode) :
    (ns.map withoutLines).flatMap (·.select t) =
      (ns.flatMap (·.select t)).map withoutLines := by
  induction ns with
  | nil => rfl
  | cons n ns ih =>
    rw [List.map_cons, List.flatMap_cons, List.flatMap_cons, ih, List.map_append,
      select_withoutLines]

theorem parseAttr_withoutLines (n : XsNode) : parseAttr (withoutLines n) = parseAttr n := by
  rw [parseAttr, parseAttr, select_withoutLines, flatMap_select, flatMap_select,
    attrib_withoutLines]
  generalize ((n.select s%"simpleType").flatMap (·.select s%"restriction")).flatMap
    (·.select s%"pattern") = found
  match found with
  | [] => rfl
  | [p] => simp only [List.map_cons, List.map_nil, attrib_withoutLines]
  | _ :: _ :: _ => rfl

theorem mapM_withoutLines {β : Type} {g : XsNode → Except PyErr β}
    (h : ∀ n, g (withoutLines n) = g n) (ns : List XsNode) :
    (ns.map withoutLines).mapM g = ns.mapM g := by
  induction ns with
  | nil => rfl
  | cons n ns ih => rw [List.map_cons, List.mapM_cons, List.mapM_cons, h, ih]

mutual
theorem parseElem_withoutLines : (n : XsNode) → parseElem (withoutLines n) = parseElem n
  | .comment => rfl
  | .elem xs t l a k => by
    rw [withoutLines, parseElem, parseElem, parseInline_withoutLines k, withoutLinesOf_eq,
      filter_withoutLines, List.length_map]
theorem parseInline_withoutLines : (ns : List XsNode) →
    parseInline (withoutLinesOf ns) = parseInline ns
  | [] => rfl
  | .comment :: ns => by
    rw [withoutLinesOf, withoutLines, parseInline, parseInline, parseInline_withoutLines ns]
  | .elem xs t l a k :: ns => by
    rw [withoutLinesOf, withoutLines, parseInline, parseInline, parseInline_withoutLines ns,
      parseSeqs_withoutLines k, withoutLinesOf_eq, filter_withoutLines,
      mapM_withoutLines parseAttr_withoutLines]
theorem parseSeqs_withoutLines : (ns : List XsNode) →
    parseSeqs (withoutLinesOf ns) = parseSeqs ns
  | [] => rfl
  | .comment :: ns => by
    rw [withoutLinesOf, withoutLines, parseSeqs, parseSeqs, parseSeqs_withoutLines ns]
  | .elem xs t l a k :: ns => by
    rw [withoutLinesOf, withoutLines, parseSeqs, parseSeqs, parseSeqs_withoutLines ns,
      parseElems_withoutLines k]
theorem parseElems_withoutLines : (ns : List XsNode) →
    parseElems (withoutLinesOf ns) = parseElems ns
  | [] => rfl
  | n :: ns => by
    rw [withoutLinesOf, parseElems, parseElems, parseElems_withoutLines ns, isXs_withoutLines,
      parseElem_withoutLines n]
end

theorem parseGroup_withoutLines (n : XsNode) : parseGroup (withoutLines n) = parseGroup n := by
  rw [parseGroup, parseGroup, kids_withoutLines, ← withoutLinesOf_eq, parseSeqs_withoutLines,
    attrib_withoutLines]

theorem parseAttrGroup_withoutLines (n : XsNode) :
    parseAttrGroup (withoutLines n) = parseAttrGroup n := by
  rw [parseAttrGroup, parseAttrGroup, select_withoutLines,
    mapM_withoutLines parseAttr_withoutLines]

theorem readLengths_withoutLines (int : Str → Option Int) : ∀ (ns : List XsNode) (s : SSimple),
    readLengths int (ns.map withoutLines) s = readLengths int ns s
  | [], _ => rfl
  | n :: ns, s => by
    rw [List.map_cons, readLengths, readLengths, attrib_withoutLines]
    simp only [readLengths_withoutLines int ns]

theorem readValues_withoutLines : ∀ (ns : List XsNode) (s : SSimple),
    readValues (ns.map withoutLines) s = readValues ns s
  | [], _ => rfl
  | n :: ns, s => by
    rw [List.map_cons, readValues, readValues, attrib_withoutLines]
    simp only [readValues_withoutLines ns]

theorem noteBase_withoutLines (s : SSimple) (n : XsNode) :
    s.noteBase (withoutLines n) = s.noteBase n := by
  rw [SSimple.noteBase, SSimple.noteBase, attrib_withoutLines]

theorem readRestrictions_withoutLines (int : Str → Option Int) :
    ∀ (ns : List XsNode) (s : SSimple),
      readRestrictions int (ns.map withoutLines) s = readRestrictions int ns s
  | [], _ => rfl
  | n :: ns, s => by
    rw [List.map_cons, readRestrictions, readRestrictions, noteBase_withoutLines,
      select_withoutLines, select_withoutLines]
    simp only [readValues_withoutLines, readLengths_withoutLines,
      readRestrictions_withoutLines int ns]

theorem parseSimple_withoutLines (int : Str → Option Int) (n : XsNode) :
    parseSimple int (withoutLines n) = parseSimple int n := by
  rw [parseSimple, parseSimple, select_withoutLines, readRestrictions_withoutLines]

theorem readSimples_withoutLines (int : Str → Option Int) :
    ∀ (ns : List XsNode) (d : Dict (Option Str) SSimple),
      readSimples int (ns.map withoutLines) d = readSimples int ns d
  | [], _ => rfl
  | n :: ns, d => by
    rw [List.map_cons, readSimples, readSimples, attrib_withoutLines, parseSimple_withoutLines]
    simp only [readSimples_withoutLines int ns]

theorem simpleTypes_withoutLines (int : Str → Option Int) (root : XsNode) :
    simpleTypes int (withoutLines root) = simpleTypes int root := by
  rw [simpleTypes, simpleTypes, select_withoutLines, readSimples_withoutLines]

/-! ## objects stored by line -/

/-- The object stored for a line is that of the last node on this line. -/
theorem byLine_get {parse : XsNode → Except PyErr SObj} : ∀ {ns : List XsNode}
    {d d' : Dict Nat SObj}, byLine parse ns d = .ok d' → ∀ l,
    Dict.get? d' l = (match (ns.filter (·.line = l)).getLast? with
      | none => Dict.get? d l
      | some n => (parse n).toOption)
  | [], d, d', h, l => by
    injection h with h
    subst h
    rfl
  | n :: ns, d, d', h, l => by
    rw [byLine] at h
    cases hp : parse n with
    | error e => rw [hp] at h; cases h
    | ok o =>
      rw [hp] at h
      rw [byLine_get (ns := ns) h l]
      by_cases hn : n.line = l
      · rw [List.filter_cons_of_pos (by simpa using hn), List.getLast?_cons]
        cases hl : (ns.filter (·.line = l)).getLast? with
        | none =>
          simp only [Option.getD_none, hp, Dict.get?_set, hn]
          simp [Except.toOption]
        | some m => rfl
      · rw [List.filter_cons_of_neg (by simpa using hn)]
        cases hl : (ns.filter (·.line = l)).getLast? with
        | none =>
          simp only [Dict.get?_set]
          simp [hn]
        | some m => rfl

theorem byLine_all {parse : XsNode → Except PyErr SObj} : ∀ {ns : List XsNode}
    {d d' : Dict Nat SObj}, byLine parse ns d = .ok d' → ∀ n ∈ ns, ∃ o, parse n = .ok o
  | n :: ns, d, d', h, m, hm => by
    rw [byLine] at h
    cases hp : parse n with
    | error e => rw [hp] at h; cases h
    | ok o =>
      rw [hp] at h
      rcases List.mem_cons.1 hm with rfl | hm
      · exact ⟨o, hp⟩
      · exact byLine_all (ns := ns) h m hm

theorem filter_line_nodup {ns : List XsNode} (hd : (ns.map XsNode.line).Nodup) {n : XsNode}
    (hn : n ∈ ns) : ns.filter (·.line = n.line) = [n] := by
  induction ns with
  | nil => cases hn
  | cons m ns ih =>
    rw [List.map_cons, List.nodup_cons] at hd
    rcases List.mem_cons.1 hn with rfl | hn
    · rw [List.filter_cons_of_pos (by simp)]
      congr 1
      rw [List.filter_eq_nil_iff]
      intro x hx
      have : x.line ≠ n.line := fun e => hd.1 (e ▸ List.mem_map_of_mem hx)
      simpa using this
    · have : m.line ≠ n.line := fun e => hd.1 (e ▸ List.mem_map_of_mem hn)
      rw [List.filter_cons_of_neg (by simpa using this)]
      exact ih hd.2 hn

/-- With one node per line the object found for a node is its own. -/
theorem atLine_own {parse : XsNode → Except PyErr SObj} {ns : List XsNode} {d : Dict Nat SObj}
    (h : byLine parse ns [] = .ok d) (hd : (ns.map XsNode.line).Nodup) {n : XsNode} (hn : n ∈ ns) :
    atLine d n = parse n := by
  have := byLine_get h n.line
  rw [filter_line_nodup hd hn] at this
  obtain ⟨o, ho⟩ := byLine_all h n hn
  rw [atLine, this, ho, List.getLast?_singleton]
  simp only [ho, Except.toOption]

theorem byLine_error {parse : XsNode → Except PyErr SObj} : ∀ {ns : List XsNode}
    {d : Dict Nat SObj} {e : PyErr}, byLine parse ns d = .error e ↔ ns.mapM parse = .error e
  | [], d, e => by simp [byLine, pure, Except.pure]
  | n :: ns, d, e => by
    rw [byLine, List.mapM_cons]
    cases hp : parse n with
    | error e' => simp [bind, Except.bind]
    | ok o =>
      refine (byLine_error (ns := ns)).trans ?_
      cases hm : ns.mapM parse with
      | error e' => simp [bind, Except.bind]
      | ok os => simp [bind, Except.bind, pure, Except.pure]

/-! ## nodes below a node -/

mutual
theorem mem_nodes_self : (n : XsNode) → n ∈ n.nodes
  | .comment => by simp [XsNode.nodes]
  | .elem .. => by simp [XsNode.nodes]
theorem mem_nodesOf {k : XsNode} : (ns : List XsNode) → k ∈ ns → k ∈ XsNode.nodesOf ns
  | n :: ns, h => by
    rw [XsNode.nodesOf, List.mem_append]
    rcases List.mem_cons.1 h with rfl | h
    · exact .inl (mem_nodes_self _)
    · exact .inr (mem_nodesOf ns h)
end

mutual
theorem nodes_kid {m k : XsNode} : (n : XsNode) → m ∈ n.nodes → k ∈ m.kids → k ∈ n.nodes
  | .comment, hm, hk => by
    simp only [XsNode.nodes, List.mem_singleton] at hm
    subst hm
    cases hk
  | .elem xs t l a ks, hm, hk => by
    rw [XsNode.nodes] at hm ⊢
    refine List.mem_cons_of_mem _ ?_
    rcases List.mem_cons.1 hm with rfl | hm
    · exact mem_nodesOf ks hk
    · exact nodesOf_kid ks hm hk
theorem nodesOf_kid {m k : XsNode} : (ns : List XsNode) → m ∈ XsNode.nodesOf ns → k ∈ m.kids →
    k ∈ XsNode.nodesOf ns
  | [], hm, _ => by cases hm
  | n :: ns, hm, hk => by
    rw [XsNode.nodesOf, List.mem_append] at hm ⊢
    rcases hm with hm | hm
    · exact .inl (nodes_kid n hm hk)
    · exact .inr (nodesOf_kid ns hm hk)
end

theorem select_kid {t : Str} {n k : XsNode} (h : k ∈ n.select t) : k ∈ n.kids :=
  (List.mem_filter.1 h).1

theorem everywhere_kid {root n k : XsNode} {t : Str} (hn : n ∈ root.nodes)
    (h : k ∈ n.select t) : k ∈ root.everywhere t :=
  List.mem_filter.2 ⟨nodes_kid root hn (select_kid h), (List.mem_filter.1 h).2⟩

theorem nodes_select {root n k : XsNode} {t : Str} (hn : n ∈ root.nodes)
    (h : k ∈ n.select t) : k ∈ root.nodes := nodes_kid root hn (select_kid h)

/-! ## reading without lines -/

/-- `db["schema"][name]` of the section `schema` alone. -/
def refOf (schema : Option (Dict (Option Str) SRef)) (name : Option Str) : Except PyErr SRef :=
  match schema.bind (Dict.get? · name) with
  | none => .error .keyError
  | some r => .ok r

def noteIn (schema : Option (Dict (Option Str) SRef)) (name : Option Str) (r : SRef) :
    Option (Dict (Option Str) SRef) :=
  some (Dict.set (schema.getD []) name r)

def ownSeq (n : XsNode) : Except PyErr (List SObj) := do
  let es ← (n.select s%"element").mapM parseElem
  let gs ← (n.select s%"group").mapM parseGroup
  .ok (es ++ gs)

def ownExtension (schema : Option (Dict (Option Str) SRef)) (n : XsNode) :
    Except PyErr (List SObj) := do
  let bs ← match Dict.get? n.attrib s%"base" with
    | none => .ok []
    | some b => (refOf schema (some (stripNs b))).map SRef.kids
  let ss ← (n.select s%"sequence").mapM ownSeq
  let as ← (n.select s%"attribute").mapM parseAttr
  .ok (bs ++ ss.flatten ++ as)

def ownContent (schema : Option (Dict (Option Str) SRef)) (n : XsNode) :
    Except PyErr (List SObj) :=
  match n.kids with
  | [] => .error .indexError
  | .comment :: _ => .error .attributeError
  | x :: _ => if x.isXs s%"extension" then ownExtension schema x else .error .assertionError

def ownAttrGroup (schema : Option (Dict (Option Str) SRef)) (n : XsNode) :
    Except PyErr (List SObj) :=
  match Dict.get? n.attrib s%"ref" with
  | none => .error .keyError
  | some r => (refOf schema (some (stripNs r))).map SRef.kids

def ownComplex (schema : Option (Dict (Option Str) SRef)) (n : XsNode) :
    Except PyErr (List SObj) := do
  let ss ← (n.select s%"sequence").mapM ownSeq
  let cs ← (n.select s%"complexContent").mapM (ownContent schema)
  let gs ← (n.select s%"group").mapM parseGroup
  let as ← (n.select s%"attribute").mapM parseAttr
  let gas ← (n.select s%"attributeGroup").mapM (ownAttrGroup schema)
  .ok (ss.flatten ++ cs.flatten ++ gs ++ as ++ gas.flatten)

def ownComplexTypes : List XsNode → Option (Dict (Option Str) SRef) →
    Except PyErr (Option (Dict (Option Str) SRef))
  | [], s => .ok s
  | n :: ns, s =>
    match Dict.get? n.attrib s%"name" with
    | none => ownComplexTypes ns s
    | some x => do
      let ks ← ownComplex s n
      ownComplexTypes ns (noteIn s (some x) (.other ks))

def ownAttrGroups : List XsNode → Option (Dict (Option Str) SRef) →
    Except PyErr (Option (Dict (Option Str) SRef))
  | [], s => .ok s
  | n :: ns, s => do
    let ks ← parseAttrGroup n
    ownAttrGroups ns (noteIn s (Dict.get? n.attrib s%"name") (.other ks))

def ownGroups : List XsNode → Option (Dict (Option Str) SRef) →
    Except PyErr (Option (Dict (Option Str) SRef))
  | [], s => .ok s
  | n :: ns, s => do
    let o ← parseGroup n
    match o.name, s with
    | none, _ => ownGroups ns s
    | some _, none => .error .keyError
    | some x, some _ => ownGroups ns (noteIn s (some x) (.other o.kids))

def ownSchema (int : Str → Option Int) (root : XsNode) :
    Except PyErr (Option (Dict (Option Str) SSimple) × Option (Dict (Option Str) SRef)) := do
  let simple ← simpleTypes int root
  let _ ← (root.everywhere s%"attribute").mapM parseAttr
  let s ← ownAttrGroups (root.select s%"attributeGroup") (startDb simple).schema
  let _ ← (root.everywhere s%"element").mapM parseElem
  let s ← ownGroups (root.everywhere s%"group") s
  let s ← ownComplexTypes (root.select s%"complexType") s
  .ok ((startDb simple).simple, s)

def ownDefinition (fuel : Nat) (schema : Option (Dict (Option Str) SRef)) (root : XsNode) :
    Except PyErr SObj :=
  match root.select s%"element" with
  | [n] => do
    let o ← parseElem n
    match Dict.get? n.attrib s%"type" with
    | none => .error .keyError
    | some t => do
      let r ← refOf schema (some (stripNs t))
      let kids ← (o.kids ++ r.kids).mapM (substitute (schema.getD []) fuel)
      .ok (.mk o.kind o.name o.key o.info kids)
  | _ => .error .assertionError

def ownSummary (fuel : Nat) (int : Str → Option Int) (root : XsNode) : Except PyErr Summary := do
  let db ← ownSchema int root
  let d ← ownDefinition fuel db.2 root
  let g ← firstValue d.groups
  let gg ← needKey g.components s%"group"
  let attr ← needKey g.components s%"attribute"
  let doc ← needKey g.components s%"doc"
  let field ← needKey g.components s%"field"
  let link ← needKey g.components s%"link"
  let symbols ← firstValue d.components
  match db.1 with
  | none => .error .keyError
  | some simple => .ok ⟨d, gg.attributes, attr, doc, field, link, symbols, simple⟩

/-! ### it does not see lines -/

theorem ownSeq_withoutLines (n : XsNode) : ownSeq (withoutLines n) = ownSeq n := by
  rw [ownSeq, ownSeq, select_withoutLines, select_withoutLines,
    mapM_withoutLines parseElem_withoutLines, mapM_withoutLines parseGroup_withoutLines]

theorem ownExtension_withoutLines (s : Option (Dict (Option Str) SRef)) (n : XsNode) :
    ownExtension s (withoutLines n) = ownExtension s n := by
  rw [ownExtension, ownExtension, select_withoutLines, select_withoutLines, attrib_withoutLines,
    mapM_withoutLines ownSeq_withoutLines, mapM_withoutLines parseAttr_withoutLines]

theorem ownContent_withoutLines (s : Option (Dict (Option Str) SRef)) (n : XsNode) :
    ownContent s (withoutLines n) = ownContent s n := by
  rw [ownContent, ownContent, kids_withoutLines]
  cases hk : n.kids with
  | nil => rfl
  | cons x xs =>
    rw [List.map_cons]
    cases x with
    | comment => rfl
    | elem b t l a ks =>
      have h1 := isXs_withoutLines s%"extension" (.elem b t l a ks)
      have h2 := ownExtension_withoutLines s (.elem b t l a ks)
      rw [withoutLines] at h1 h2 ⊢
      simp only [h1, h2]

theorem ownAttrGroup_withoutLines (s : Option (Dict (Option Str) SRef)) (n : XsNode) :
    ownAttrGroup s (withoutLines n) = ownAttrGroup s n := by
  rw [ownAttrGroup, ownAttrGroup, attrib_withoutLines]

theorem ownComplex_withoutLines (s : Option (Dict (Option Str) SRef)) (n : XsNode) :
    ownComplex s (withoutLines n) = ownComplex s n := by
  simp only [ownComplex, select_withoutLines]
  rw [mapM_withoutLines ownSeq_withoutLines, mapM_withoutLines parseAttr_withoutLines,
    mapM_withoutLines (ownContent_withoutLines s), mapM_withoutLines parseGroup_withoutLines,
    mapM_withoutLines (ownAttrGroup_withoutLines s)]

theorem ownComplexTypes_withoutLines : ∀ (ns : List XsNode) (s : Option (Dict (Option Str) SRef)),
    ownComplexTypes (ns.map withoutLines) s = ownComplexTypes ns s
  | [], _ => rfl
  | n :: ns, s => by
    rw [List.map_cons, ownComplexTypes, ownComplexTypes, attrib_withoutLines,
      ownComplex_withoutLines]
    simp only [ownComplexTypes_withoutLines ns]

theorem ownAttrGroups_withoutLines : ∀ (ns : List XsNode) (s : Option (Dict (Option Str) SRef)),
    ownAttrGroups (ns.map withoutLines) s = ownAttrGroups ns s
  | [], _ => rfl
  | n :: ns, s => by
    rw [List.map_cons, ownAttrGroups, ownAttrGroups, attrib_withoutLines,
      parseAttrGroup_withoutLines]
    simp only [ownAttrGroups_withoutLines ns]

theorem ownGroups_withoutLines : ∀ (ns : List XsNode) (s : Option (Dict (Option Str) SRef)),
    ownGroups (ns.map withoutLines) s = ownGroups ns s
  | [], _ => rfl
  | n :: ns, s => by
    rw [List.map_cons, ownGroups, ownGroups, parseGroup_withoutLines]
    simp only [ownGroups_withoutLines ns]

theorem ownSchema_withoutLines (int : Str → Option Int) (root : XsNode) :
    ownSchema int (withoutLines root) = ownSchema int root := by
  simp only [ownSchema, simpleTypes_withoutLines, everywhere_withoutLines, select_withoutLines,
    ownComplexTypes_withoutLines, ownAttrGroups_withoutLines, ownGroups_withoutLines]
  rw [mapM_withoutLines parseAttr_withoutLines, mapM_withoutLines parseElem_withoutLines]

theorem ownDefinition_withoutLines (fuel : Nat) (s : Option (Dict (Option Str) SRef))
    (root : XsNode) : ownDefinition fuel s (withoutLines root) = ownDefinition fuel s root := by
  rw [ownDefinition, ownDefinition, select_withoutLines]
  match root.select s%"element" with
  | [] => rfl
  | [n] => simp only [List.map_cons, List.map_nil, attrib_withoutLines, parseElem_withoutLines]
  | _ :: _ :: _ => rfl

theorem ownSummary_withoutLines (fuel : Nat) (int : Str → Option Int) (root : XsNode) :
    ownSummary fuel int (withoutLines root) = ownSummary fuel int root := by
  simp only [ownSummary, ownSchema_withoutLines, ownDefinition_withoutLines]

/-! ### with distinct lines it is what the code reads -/

/-- the sections of the catalogue hold for each node its own object -/
structure Own (root : XsNode) (db : SchemaDb) : Prop where
  attrs : ∀ n ∈ root.everywhere s%"attribute", atLine db.attrs n = parseAttr n
  elems : ∀ n ∈ root.everywhere s%"element", atLine db.elems n = parseElem n
  groups : ∀ n ∈ root.everywhere s%"group", atLine db.groups n = parseGroup n

theorem mapM_congr' {α β : Type} {f g : α → Except PyErr β} : ∀ {l : List α},
    (∀ a ∈ l, f a = g a) → l.mapM f = l.mapM g
  | [], _ => rfl
  | a :: l, h => by
    rw [List.mapM_cons, List.mapM_cons, h a (by simp),
      mapM_congr' fun b hb => h b (List.mem_cons_of_mem _ hb)]

theorem ref_eq (db : SchemaDb) (k : Option Str) : db.ref k = refOf db.schema k := rfl

theorem seqKids_own {root : XsNode} {db : SchemaDb} (ho : Own root db) {n : XsNode}
    (hn : n ∈ root.nodes) : seqKids db n = ownSeq n := by
  rw [seqKids, ownSeq, mapM_congr' fun m hm => ho.elems m (everywhere_kid hn hm),
    mapM_congr' fun m hm => ho.groups m (everywhere_kid hn hm)]

theorem extensionKids_own {root : XsNode} {db : SchemaDb} (ho : Own root db) {n : XsNode}
    (hn : n ∈ root.nodes) : extensionKids db n = ownExtension db.schema n := by
  rw [extensionKids, ownExtension, mapM_congr' fun m hm => ho.attrs m (everywhere_kid hn hm),
    mapM_congr' fun m hm => seqKids_own ho (nodes_select hn hm)]
  cases Dict.get? n.attrib s%"base" <;> rfl

theorem contentKids_own {root : XsNode} {db : SchemaDb} (ho : Own root db) {n : XsNode}
    (hn : n ∈ root.nodes) : contentKids db n = ownContent db.schema n := by
  rw [contentKids, ownContent]
  cases hk : n.kids with
  | nil => rfl
  | cons x xs =>
    cases x with
    | comment => rfl
    | elem b t l a ks =>
      simp only [extensionKids_own ho (nodes_kid root hn (hk ▸ List.mem_cons_self))]

theorem complexKids_own {root : XsNode} {db : SchemaDb} (ho : Own root db) {n : XsNode}
    (hn : n ∈ root.nodes) : complexKids db n = ownComplex db.schema n := by
  rw [complexKids, ownComplex, mapM_congr' fun m hm => ho.attrs m (everywhere_kid hn hm),
    mapM_congr' fun m hm => seqKids_own ho (nodes_select hn hm),
    mapM_congr' fun m hm => contentKids_own ho (nodes_select hn hm),
    mapM_congr' fun m hm => ho.groups m (everywhere_kid hn hm)]
  rfl

theorem complexTypes_own {root : XsNode} : ∀ {ns : List XsNode} {db : SchemaDb},
    (∀ n ∈ ns, n ∈ root.nodes) → Own root db →
    complexTypes ns db = (ownComplexTypes ns db.schema).map fun s => { db with schema := s }
  | [], db, _, _ => rfl
  | n :: ns, db, hns, ho => by
    rw [complexTypes, ownComplexTypes, complexKids_own ho (hns n (by simp))]
    cases hn : Dict.get? n.attrib s%"name" with
    | none => exact complexTypes_own (fun m hm => hns m (List.mem_cons_of_mem _ hm)) ho
    | some x =>
      cases hk : ownComplex db.schema n with
      | error e => rfl
      | ok ks =>
        exact complexTypes_own (db := db.note (some x) (.other ks))
          (fun m hm => hns m (List.mem_cons_of_mem _ hm)) ⟨ho.attrs, ho.elems, ho.groups⟩

theorem attrGroups_own : ∀ (ns : List XsNode) (db : SchemaDb),
    attrGroups ns db = (ownAttrGroups ns db.schema).map fun s => { db with schema := s }
  | [], db => rfl
  | n :: ns, db => by
    rw [attrGroups, ownAttrGroups]
    cases hk : parseAttrGroup n with
    | error e => rfl
    | ok ks => exact attrGroups_own ns (db.note (Dict.get? n.attrib s%"name") (.other ks))

theorem namedGroups_own : ∀ (ns : List XsNode) (db : SchemaDb),
    namedGroups ns db = (match ownGroups ns db.schema, byLine parseGroup ns db.groups with
      | .error e, _ => .error e
      | .ok _, .error e => .error e
      | .ok s, .ok g => .ok { db with schema := s, groups := g })
  | [], db => rfl
  | n :: ns, db => by
    rw [namedGroups, ownGroups, byLine]
    cases hk : parseGroup n with
    | error e => rfl
    | ok o =>
      simp only [bind, Except.bind]
      cases hn : o.name with
      | none => exact namedGroups_own ns { db with groups := Dict.set db.groups n.line o }
      | some x =>
        cases hs : db.schema with
        | none => rfl
        | some d =>
          have := namedGroups_own ns (SchemaDb.note
            { db with groups := Dict.set db.groups n.line o } (some x) (.other o.kids))
          simp only [SchemaDb.note, hs] at this ⊢
          exact this

theorem ownGroups_parses : ∀ {ns : List XsNode} {s s' : Option (Dict (Option Str) SRef)},
    ownGroups ns s = .ok s' → ∀ d, ∃ g, byLine parseGroup ns d = .ok g
  | [], s, s', _, d => ⟨d, rfl⟩
  | n :: ns, s, s', h, d => by
    rw [ownGroups] at h
    rw [byLine]
    cases hk : parseGroup n with
    | error e => rw [hk] at h; cases h
    | ok o =>
      rw [hk] at h
      simp only [bind, Except.bind] at h ⊢
      cases hn : o.name with
      | none => rw [hn] at h; exact ownGroups_parses h _
      | some x =>
        rw [hn] at h
        cases hs : s with
        | none => rw [hs] at h; cases h
        | some d => rw [hs] at h; exact ownGroups_parses h _

theorem byLine_cases {parse : XsNode → Except PyErr SObj} (ns : List XsNode) :
    (∃ e, byLine parse ns [] = .error e ∧ ns.mapM parse = .error e) ∨
      ∃ d os, byLine parse ns [] = .ok d ∧ ns.mapM parse = .ok os := by
  cases h : byLine parse ns [] with
  | error e => exact .inl ⟨e, rfl, byLine_error.1 h⟩
  | ok d =>
    refine .inr ⟨d, ?_⟩
    cases hm : ns.mapM parse with
    | error e => rw [byLine_error.2 hm] at h; cases h
    | ok os => exact ⟨os, rfl, rfl⟩

theorem readSchema_own (int : Str → Option Int) {root : XsNode} (hd : DistinctLines root) :
    (∃ e, readSchema int root = .error e ∧ ownSchema int root = .error e) ∨
      ∃ db, readSchema int root = .ok db ∧ ownSchema int root = .ok (db.simple, db.schema) ∧
        Own root db := by
  rw [readSchema, ownSchema]
  cases hs : simpleTypes int root with
  | error e => exact .inl ⟨e, rfl, rfl⟩
  | ok simple =>
    simp only [bind, Except.bind]
    rcases byLine_cases (parse := parseAttr) (root.everywhere s%"attribute") with
      ⟨e, h1, h2⟩ | ⟨da, oa, h1, h2⟩
    · rw [h1, h2]
      exact .inl ⟨e, rfl, rfl⟩
    rw [h1, h2]
    simp only [attrGroups_own]
    cases hg : ownAttrGroups (root.select s%"attributeGroup") (startDb simple).schema with
    | error e => exact .inl ⟨e, rfl, rfl⟩
    | ok s1 =>
      simp only [Except.map]
      rcases byLine_cases (parse := parseElem) (root.everywhere s%"element") with
        ⟨e, h3, h4⟩ | ⟨de, oe, h3, h4⟩
      · rw [h3, h4]
        exact .inl ⟨e, rfl, rfl⟩
      rw [h3, h4]
      simp only [namedGroups_own]
      cases ho : ownGroups (root.everywhere s%"group") s1 with
      | error e => exact .inl ⟨e, rfl, rfl⟩
      | ok s2 =>
        obtain ⟨g, h5⟩ := ownGroups_parses ho []
        have hg0 : (startDb simple).groups = [] := by cases simple <;> rfl
        rw [hg0, h5]
        simp only []
        have hown : Own root { startDb simple with
            schema := s2, attrs := da, elems := de, groups := g } :=
          ⟨fun n hn => atLine_own h1 (hd _ (by simp)) hn,
            fun n hn => atLine_own h3 (hd _ (by simp)) hn,
            fun n hn => atLine_own h5 (hd _ (by simp)) hn⟩
        rw [complexTypes_own (fun n hn => nodes_select (mem_nodes_self root) hn) hown]
        simp only []
        cases hc : ownComplexTypes (root.select s%"complexType") s2 with
        | error e => exact .inl ⟨e, rfl, rfl⟩
        | ok s3 => exact .inr ⟨_, rfl, rfl, ⟨hown.attrs, hown.elems, hown.groups⟩⟩

theorem definition_own {root : XsNode} {db : SchemaDb} (ho : Own root db) (fuel : Nat) :
    definitionElement fuel db root = ownDefinition fuel db.schema root := by
  rw [definitionElement, ownDefinition]
  have : ∀ n ∈ root.select s%"element", atLine db.elems n = parseElem n :=
    fun n hn => ho.elems n (everywhere_kid (mem_nodes_self root) hn)
  generalize root.select s%"element" = l at this ⊢
  match l, this with
  | [], _ => rfl
  | [n], h =>
    simp only [h n (by simp), ref_eq]
    rfl
  | _ :: _ :: _, _ => rfl

theorem summarize_own (fuel : Nat) (int : Str → Option Int) {root : XsNode}
    (hd : DistinctLines root) : summarize fuel int root = ownSummary fuel int root := by
  rw [summarize, ownSummary]
  rcases readSchema_own int hd with ⟨e, h1, h2⟩ | ⟨db, h1, h2, h3⟩
  · rw [h1, h2]
    rfl
  · rw [h1, h2]
    simp only [bind, Except.bind, definition_own h3]
    rfl

/-- C78, as far as it holds: if no two attributes, elements or groups start on one line, the line
breaks of the schema have no influence. -/
theorem layout_irrelevant_partial (fuel : Nat) (int : Str → Option Int) {r r' : XsNode}
    (hs : SameContent r r') (hr : DistinctLines r) (hr' : DistinctLines r') :
    summarize fuel int r = summarize fuel int r' := by
  rw [summarize_own fuel int hr, summarize_own fuel int hr', ← ownSummary_withoutLines,
    ← ownSummary_withoutLines fuel int r', hs]

end Punx
