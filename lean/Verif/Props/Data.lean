import Verif.Spec.Data
import Verif.Props.Unused

/-!
# C121: the data of a file do not matter for its validation
-/

namespace Punx
open Spec Classical

/-! ## objects without data -/

/-- No data. -/
def noData : DataInfo := ⟨.none, .other, [], none, [], [], fun _ => [], []⟩

/-- The value, if the name of the link is in `K`. -/
noncomputable def keptData (K : Str → Prop) (l : Str) (d : DataInfo) : DataInfo :=
  if K l then { noData with value := d.value } else noData

mutual
/-- The object without the data of datasets, except for values under names in `K`. -/
noncomputable def bareNode (K : Str → Prop) (l : Str) : Node → Node
  | .dataset n a d => .dataset n a (keptData K l d)
  | .datatype n a => .datatype n a
  | .group n a ks => .group n a (bareKids K ks)
/-- The same for members, with hard links. -/
noncomputable def bareKids (K : Str → Prop) : Kids → Kids
  | .nil => .nil
  | .cons l _ n r => .cons l .hard (bareNode K l n) (bareKids K r)
  | .broken l _ r => .broken l .hard (bareKids K r)
end

mutual
theorem LikeNode.bare {K : Str → Prop} {l : Str} {n n' : Node} : LikeNode K l n n' →
    bareNode K l n = bareNode K l n'
  | .dataset h => by
    simp only [bareNode, keptData]
    split
    · rename_i hk; rw [h hk]
    · rfl
  | .datatype => rfl
  | .group h => by simp only [bareNode, LikeKids.bare h]
theorem LikeKids.bare {K : Str → Prop} {ks ks' : Kids} : LikeKids K ks ks' →
    bareKids K ks = bareKids K ks'
  | .nil => rfl
  | .cons h t => by simp only [bareKids, LikeNode.bare h, LikeKids.bare t]
  | .broken t => by simp only [bareKids, LikeKids.bare t]
end

/-- The file without data. -/
noncomputable def H5File.bare (K : Str → Prop) (f : H5File) : H5File := ⟨f.attrs, bareKids K f.kids⟩

theorem bare_root (K : Str → Prop) (f : H5File) (l : Str) :
    (f.bare K).root = bareNode K l f.root := by
  simp only [H5File.root, H5File.bare, bareNode]

theorem bareKids_toList (K : Str → Prop) : ∀ ks : Kids,
    (bareKids K ks).toList = ks.toList.map fun p => (p.1, p.2.map (bareNode K p.1))
  | .nil => rfl
  | .cons l k n r => by simp [bareKids, Kids.toList, bareKids_toList K r]
  | .broken l k r => by simp [bareKids, Kids.toList, bareKids_toList K r]

theorem bareKids_find (K : Str → Prop) (ks : Kids) (c : Str) :
    (bareKids K ks).find c = (ks.find c).map (Option.map (bareNode K c)) := by
  unfold Kids.find
  rw [bareKids_toList]
  induction ks.toList with
  | nil => rfl
  | cons p ps ih =>
    obtain ⟨l, o⟩ := p
    simp only [List.map_cons, List.lookup_cons]
    by_cases h : c = l
    · subst h; simp
    · have : (c == l) = false := by simpa using h
      simp only [this, ih]

theorem bare_resolve (K : Str → Prop) : ∀ (cs : List Str) (l : Str) (s : Node),
    resolve (bareNode K l s) cs = (resolve s cs).map (bareNode K (cs.getLast?.getD l))
  | [], l, s => by simp [resolve]
  | c :: cs, l, s => by
    cases s with
    | dataset n a d => simp [resolve, bareNode]
    | datatype n a => simp [resolve, bareNode]
    | group n a ks =>
      simp only [resolve, bareNode, bareKids_find]
      cases ks.find c with
      | none => rfl
      | some o =>
        cases o with
        | none => rfl
        | some m =>
          simp only [Option.map_some]
          rw [bare_resolve K cs c m]
          congr 2
          cases cs with
          | nil => rfl
          | cons d ds => rw [List.getLast?_cons_cons, List.getLast?_eq_some_getLast (by simp)]; rfl

theorem bare_linkExists (K : Str → Prop) : ∀ (cs : List Str) (l : Str) (s : Node),
    linkExists (bareNode K l s) cs = linkExists s cs
  | [], l, s => rfl
  | [c], l, s => by
    cases s with
    | dataset n a d => rfl
    | datatype n a => rfl
    | group n a ks =>
      simp only [linkExists, bareNode, bareKids_find]
      cases ks.find c <;> rfl
  | c :: d :: cs, l, s => by
    cases s with
    | dataset n a d => rfl
    | datatype n a => rfl
    | group n a ks =>
      simp only [linkExists, bareNode, bareKids_find]
      cases ks.find c with
      | none => rfl
      | some o =>
        cases o with
        | none => rfl
        | some m => exact bare_linkExists K (d :: cs) c m

theorem bare_start (K : Str → Prop) (f : H5File) (l : Str) (g : Node) (p : Str) :
    startNode (f.bare K) (bareNode K l g) p = bareNode K l (startNode f g p) := by
  unfold startNode
  split
  · exact bare_root K f l
  · rfl

theorem bare_groupThere (K : Str → Prop) (cs : List Str) (l : Str) (s : Node) :
    groupThere (bareNode K l s) cs = groupThere s cs := by
  rw [groupThere_eq, groupThere_eq, bare_resolve]
  cases resolve s cs with
  | none => rfl
  | some m => cases m <;> simp [bareNode, Node.grp]

theorem bare_contains (K : Str → Prop) (f : H5File) (l : Str) (g : Node) (p : Str) :
    h5contains (f.bare K) (bareNode K l g) p = h5contains f g p := by
  unfold h5contains
  rw [bare_start, bare_linkExists, bare_groupThere]

theorem bare_get (K : Str → Prop) (f : H5File) (l : Str) (g : Node) (p : Str) :
    h5get (f.bare K) (bareNode K l g) p =
      (h5get f g p).map (Option.map (bareNode K ((pathParts p).getLast?.getD l))) := by
  unfold h5get
  split
  · rfl
  · rw [bare_start, bare_resolve]; rfl

theorem bareNode_name (K : Str → Prop) (l : Str) (n : Node) : (bareNode K l n).name = n.name := by
  cases n <;> rfl

theorem bareNode_attrs (K : Str → Prop) (l : Str) (n : Node) : (bareNode K l n).attrs = n.attrs := by
  cases n <;> rfl

/-! ## items without data -/

/-- What an item refers to, without data. -/
noncomputable def H5Obj.bare (K : Str → Prop) : H5Obj → H5Obj
  | .file f => .file (f.bare K)
  | .node (.dataset n a _) => .node (.dataset n a noData)
  | .node (.datatype n a) => .node (.datatype n a)
  | .node (.group n a ks) => .node (.group n a (bareKids K ks))
  | .val v => .val v
  | .none => .none

noncomputable def Core.bare (K : Str → Prop) (c : Core) : Core := { c with obj := c.obj.bare K }

noncomputable def Item.bare (K : Str → Prop) (it : Item) : Item :=
  ⟨it.toCore.bare K, it.ancestors.map (Core.bare K)⟩

section
variable (K : Str → Prop)

theorem bare_name? (o : H5Obj) : (o.bare K).name? = o.name? := by
  cases o with
  | node n => cases n <;> rfl
  | _ => rfl

theorem bare_attrs? (o : H5Obj) : (o.bare K).attrs? = o.attrs? := by
  cases o with
  | node n => cases n <;> rfl
  | _ => rfl

theorem bare_asGroup (o : H5Obj) : (o.bare K).asGroup = o.asGroup.map (bareNode K []) := by
  cases o with
  | node n => cases n <;> rfl
  | file f => simp [H5Obj.bare, H5Obj.asGroup, bare_root K f []]
  | _ => rfl

theorem bare_isGroup (o : H5Obj) : isHdf5Group (o.bare K) = isHdf5Group o := by
  cases o with
  | node n => cases n <;> rfl
  | _ => rfl

theorem bare_isFile (o : H5Obj) : isHdf5File (o.bare K) = isHdf5File o := by
  cases o with
  | node n => cases n <;> rfl
  | _ => rfl

theorem bare_isDataset (o : H5Obj) : isHdf5Dataset (o.bare K) = isHdf5Dataset o := by
  cases o with
  | node n => cases n <;> rfl
  | _ => rfl

theorem bare_isLink (o : H5Obj) : isHdf5Link (o.bare K) = isHdf5Link o := by
  cases o with
  | node n => cases n <;> rfl
  | _ => rfl

theorem bare_typeCheck (env : Env) (o : H5Obj) :
    objectTypeCheck env (o.bare K) = objectTypeCheck env o := by
  cases o with
  | node n => cases n <;> rfl
  | _ => rfl

theorem bare_parent (it : Item) : (it.bare K).parent = it.parent.map (Item.bare K) := by
  obtain ⟨c, a⟩ := it
  cases a <;> rfl

theorem bare_chain (it : Item) : (it.bare K).chain = it.chain.map (Core.bare K) := rfl

theorem bare_record (it : Item) (k : Str) (st : Status) (c : Str) :
    record (it.bare K) k st c = record it k st c := rfl

theorem bare_mkItem (env : Env) (p : Option Item) (o : H5Obj) (an : Option Str) (oid : List Nat) :
    mkItem env (p.map (Item.bare K)) (o.bare K) an oid =
      (mkItem env p o an oid).map (Item.bare K) := by
  unfold mkItem
  rw [bare_name?]
  cases o.name? with
  | some n =>
    simp only [bare_attrs?, bare_isGroup, bare_typeCheck]
    have hd : ∀ b x y, determineClasspath env (p.map (Item.bare K)) b x y =
        determineClasspath env p b x y := by
      intro b x y
      cases p <;> rfl
    rw [hd]
    cases determineClasspath env p (isHdf5Group o) (objName n) (o.attrs?.getD []) with
    | error e => rfl
    | ok r =>
      obtain ⟨cp, nx⟩ := r
      cases h : objectTypeCheck env o with
      | error e => simp only [bind, Except.bind]; rfl
      | ok u =>
        simp only [bind, Except.bind]
        cases p <;> rfl
  | none =>
    cases p with
    | none => rfl
    | some p =>
      simp only [Option.map_some]
      have hc : (Item.bare K p).classpath = p.classpath := rfl
      rw [hc]
      split <;> rfl

end

/-! ## the catalogue -/

/-- The items of two runs are the same without data, and so are the results. -/
def LikeRun {α : Type} (K : Str → Prop) (R : α → α → Prop) (x x' : W Item α) : Prop :=
  x.log.map (Item.bare K) = x'.log.map (Item.bare K) ∧
  ((∃ e, x.res = .error e ∧ x'.res = .error e) ∨ ∃ a a', x.res = .ok a ∧ x'.res = .ok a' ∧ R a a')

theorem LikeRun.bind {α β : Type} {K : Str → Prop} {R : α → α → Prop} {S : β → β → Prop}
    {x x' : W Item α} {k k' : α → W Item β} (h : LikeRun K R x x')
    (hk : ∀ a a', R a a' → LikeRun K S (k a) (k' a')) : LikeRun K S (x >>= k) (x' >>= k') := by
  obtain ⟨l, r⟩ := x
  obtain ⟨l', r'⟩ := x'
  obtain ⟨h1, h2⟩ := h
  simp only at h1 h2
  rcases h2 with ⟨e, rfl, rfl⟩ | ⟨a, a', rfl, rfl, h2⟩
  · exact ⟨h1, .inl ⟨e, rfl, rfl⟩⟩
  · obtain ⟨h3, h4⟩ := hk a a' h2
    refine ⟨?_, h4⟩
    show (l ++ (k a).log).map _ = (l' ++ (k' a').log).map _
    rw [List.map_append, List.map_append, h1, h3]

theorem LikeRun.pure {α : Type} {K : Str → Prop} {R : α → α → Prop} {a a' : α} (h : R a a') :
    LikeRun K R (Pure.pure a) (Pure.pure a') := ⟨rfl, .inr ⟨a, a', rfl, rfl, h⟩⟩

theorem LikeRun.tell {K : Str → Prop} {it it' : Item} (h : it.bare K = it'.bare K) :
    LikeRun K (fun _ _ => True) (W.tell it) (W.tell it') :=
  ⟨by show [_] = [_]; rw [h], .inr ⟨(), (), rfl, rfl, trivial⟩⟩

theorem like_mkItem {K : Str → Prop} {env : Env} {p p' : Option Item} {o o' : H5Obj}
    (an : Option Str) (oid : List Nat) (hp : p.map (Item.bare K) = p'.map (Item.bare K))
    (ho : o.bare K = o'.bare K) :
    LikeRun K (fun a a' => a.bare K = a'.bare K) (W.lift (mkItem env p o an oid))
      (W.lift (mkItem env p' o' an oid)) := by
  have h := bare_mkItem K env p o an oid
  have h' := bare_mkItem K env p' o' an oid
  rw [hp, ho, h'] at h
  cases hx : mkItem env p o an oid with
  | error e =>
    rw [hx] at h
    cases hy : mkItem env p' o' an oid with
    | error e' =>
      rw [hy] at h
      injection h with h
      subst h
      exact ⟨rfl, .inl ⟨_, rfl, rfl⟩⟩
    | ok a => rw [hy] at h; cases h
  | ok a =>
    rw [hx] at h
    cases hy : mkItem env p' o' an oid with
    | error e' => rw [hy] at h; cases h
    | ok a' =>
      rw [hy] at h
      injection h with h
      exact ⟨rfl, .inr ⟨a, a', rfl, rfl, h.symm⟩⟩

theorem like_attrItems {K : Str → Prop} {env : Env} {v v' : Item} (hv : v.bare K = v'.bare K) :
    ∀ (l : List (Str × Val)) (j : Nat),
      LikeRun K (fun a a' => a.map (Item.bare K) = a'.map (Item.bare K)) (attrItems env v j l)
        (attrItems env v' j l)
  | [], _ => .pure rfl
  | (k, a) :: rest, j => by
    have ho : v.oid = v'.oid := by
      have := congrArg (fun i : Item => i.oid) hv
      exact this
    unfold attrItems
    rw [ho]
    refine .bind (like_mkItem (some k) _ (by simp [hv]) rfl) fun av av' h => ?_
    refine .bind (.tell h) fun _ _ _ => ?_
    refine .bind (like_attrItems hv rest (j + 1)) fun l l' hl => ?_
    exact .pure (by simp [h, hl])

theorem like_getSubject {K : Str → Prop} {env : Env} {p p' : Option Item} {o o' : H5Obj}
    (attrs : List (Str × Val)) (oid : List Nat)
    (hp : p.map (Item.bare K) = p'.map (Item.bare K)) (ho : o.bare K = o'.bare K) :
    LikeRun K (fun a a' => a.1.bare K = a'.1.bare K ∧
      a.2.map (Item.bare K) = a'.2.map (Item.bare K)) (getSubject env p o attrs oid)
      (getSubject env p' o' attrs oid) := by
  unfold getSubject
  refine .bind (like_mkItem none oid hp ho) fun v v' h => ?_
  refine .bind (.tell h) fun _ _ _ => ?_
  refine .bind (like_attrItems h _ 0) fun l l' hl => ?_
  exact .pure ⟨h, hl⟩

theorem like_childParent {K : Str → Prop} {v v' : Item} {avs avs' : List Item}
    (h : v.bare K = v'.bare K) (ha : avs.map (Item.bare K) = avs'.map (Item.bare K)) :
    (childParent v avs).bare K = (childParent v' avs').bare K := by
  have key : ∀ (v : Item) (avs : List Item), (childParent v avs).bare K =
      childParent (v.bare K) (avs.map (Item.bare K)) := by
    intro v avs
    unfold childParent
    rw [List.filter_map, List.getLast?_map]
    have : (fun a : Item => decide (a.classpath = (v.bare K).classpath)) ∘ Item.bare K =
        fun a => decide (a.classpath = v.classpath) := rfl
    rw [this]
    cases (avs.filter fun a => decide (a.classpath = v.classpath)).getLast? <;> rfl
  rw [key, key, h, ha]

mutual
theorem like_catalogNode {K : Str → Prop} {env : Env} {p p' : Item} (hp : p.bare K = p'.bare K)
    (oid : List Nat) {l : Str} {n n' : Node} : LikeNode K l n n' →
      LikeRun K (fun _ _ => True) (catalogNode env p oid n) (catalogNode env p' oid n')
  | .dataset _ => by
    simp only [catalogNode]
    exact .bind (like_getSubject _ oid (by simp [hp]) rfl) fun _ _ _ => .pure trivial
  | .datatype => by
    simp only [catalogNode]
    exact .bind (like_getSubject _ oid (by simp [hp]) rfl) fun _ _ _ => .pure trivial
  | .group h => by
    simp only [catalogNode]
    refine .bind (like_getSubject _ oid (by simp [hp]) (by simp only [H5Obj.bare, LikeKids.bare h]))
      fun a a' ha => ?_
    exact like_catalogKids (like_childParent ha.1 ha.2) oid 0 h
theorem like_catalogKids {K : Str → Prop} {env : Env} {p p' : Item} (hp : p.bare K = p'.bare K)
    (oid : List Nat) (i : Nat) {ks ks' : Kids} : LikeKids K ks ks' →
      LikeRun K (fun _ _ => True) (catalogKids env p oid i ks) (catalogKids env p' oid i ks')
  | .nil => by simp only [catalogKids]; exact .pure trivial
  | .cons h t => by
    simp only [catalogKids]
    exact .bind (like_catalogNode hp _ h) fun _ _ _ => like_catalogKids hp oid (i + 1) t
  | .broken t => by simp only [catalogKids]; exact ⟨rfl, .inl ⟨_, rfl, rfl⟩⟩
end

theorem like_catalog {K : Str → Prop} {env : Env} {f f' : H5File} (h : OtherData K f f') :
    LikeRun K (fun _ _ => True) (catalog env f) (catalog env f') := by
  unfold catalog
  rw [h.attrs]
  refine .bind (like_getSubject _ [] rfl ?_) fun a a' ha => ?_
  · simp only [H5Obj.bare, H5File.bare, h.attrs, LikeKids.bare h.kids]
  · exact like_catalogKids (like_childParent ha.1 ha.2) [] 0 h.kids

/-! ## the tables -/

/-- A dictionary with other values. -/
def Dict.mapVals {κ β γ : Type} (g : β → γ) (d : Dict κ β) : Dict κ γ := d.map fun p => (p.1, g p.2)

theorem Dict.get?_mapVals {κ β γ : Type} [DecidableEq κ] (g : β → γ) (k : κ) : ∀ d : Dict κ β,
    Dict.get? (Dict.mapVals g d) k = (Dict.get? d k).map g
  | [] => rfl
  | (k', v) :: rest => by
    show (if k' = k then some (g v) else Dict.get? (Dict.mapVals g rest) k) = _
    rw [Dict.get?]
    split
    · rfl
    · exact Dict.get?_mapVals g k rest

theorem Dict.set_mapVals {κ β γ : Type} [DecidableEq κ] (g : β → γ) (k : κ) (v : β) : ∀ d : Dict κ β,
    Dict.set (Dict.mapVals g d) k (g v) = Dict.mapVals g (Dict.set d k v)
  | [] => rfl
  | (k', v') :: rest => by
    show (if k' = k then (k, g v) :: Dict.mapVals g rest
      else (k', g v') :: Dict.set (Dict.mapVals g rest) k (g v)) = _
    rw [Dict.set]
    split
    · rfl
    · rw [Dict.set_mapVals g k v rest]; rfl

theorem Dict.values_mapVals {κ β γ : Type} (g : β → γ) (d : Dict κ β) :
    Dict.values (Dict.mapVals g d) = (Dict.values d).map g := by
  simp [Dict.values, Dict.mapVals]

theorem bare_addressTable (K : Str → Prop) (items : List Item) :
    addressTable (items.map (Item.bare K)) = Dict.mapVals (Item.bare K) (addressTable items) := by
  unfold addressTable
  rw [List.foldl_map]
  suffices ∀ d : Dict (Option Str) Item,
      items.foldl (fun d it => Dict.set d (it.bare K).addr (it.bare K)) (Dict.mapVals (Item.bare K) d) =
        Dict.mapVals (Item.bare K) (items.foldl (fun d it => Dict.set d it.addr it) d) from this []
  induction items with
  | nil => intro d; rfl
  | cons it items ih =>
    intro d
    simp only [List.foldl_cons]
    rw [Dict.set_mapVals]
    exact ih _

theorem bare_classpathTable (K : Str → Prop) (items : List Item) :
    classpathTable (items.map (Item.bare K)) =
      Dict.mapVals (List.map (Item.bare K)) (classpathTable items) := by
  unfold classpathTable
  rw [List.foldl_map]
  suffices ∀ d : Dict Str (List Item),
      items.foldl (fun d it => addClasspath d (it.bare K)) (Dict.mapVals (List.map (Item.bare K)) d) =
        Dict.mapVals (List.map (Item.bare K)) (items.foldl addClasspath d) from this []
  induction items with
  | nil => intro d; rfl
  | cons it items ih =>
    intro d
    simp only [List.foldl_cons]
    have : addClasspath (Dict.mapVals (List.map (Item.bare K)) d) (it.bare K) =
        Dict.mapVals (List.map (Item.bare K)) (addClasspath d it) := by
      unfold addClasspath
      rw [← Dict.set_mapVals, Dict.get?_mapVals]
      have hc : (it.bare K).classpath = it.classpath := rfl
      rw [hc]
      congr 1
      cases Dict.get? d it.classpath <;> simp
    rw [this]
    exact ih _

/-- The validator without data. -/
noncomputable def Ctx.bare (K : Str → Prop) (ctx : Ctx) : Ctx :=
  ⟨ctx.env, ctx.mgr, ctx.file.bare K, Dict.mapVals (Item.bare K) ctx.addresses,
    Dict.mapVals (List.map (Item.bare K)) ctx.classpaths, ctx.minOccurs⟩

/-! ## the checks -/

section
variable (K : Str → Prop) (ctx : Ctx)

theorem bare_itemName (seen : List Str) (it : Item) :
    itemNameVerify (ctx.bare K) seen (it.bare K) = itemNameVerify ctx seen it := by
  unfold itemNameVerify
  rw [bare_parent]
  cases it.parent with
  | none => rfl
  | some p =>
    have h1 : isNeXusLinkTarget (ctx.bare K).env (p.bare K) = isNeXusLinkTarget ctx.env p := by
      unfold isNeXusLinkTarget
      have : (p.bare K).obj = p.obj.bare K := rfl
      rw [this, bare_attrs?]
      rfl
    have h2 : handleNXClass (ctx.bare K) (it.bare K) = handleNXClass ctx it := by
      unfold handleNXClass
      have : (it.bare K).obj = it.obj.bare K := rfl
      rw [this]
      cases it.obj with
      | node n => cases n <;> rfl
      | _ => rfl
    simp only [Option.map_some, h1, h2]
    have h3 : (it.bare K).obj = it.obj.bare K := rfl
    rw [h3, bare_isDataset, bare_isGroup, bare_isLink]
    rfl

theorem bare_targetLoop (it : Item) : ∀ (l : List Str) (a : Str),
    targetLoop (ctx.bare K) (it.bare K) a l = targetLoop ctx it a l
  | [], _ => rfl
  | p :: ps, a => by
    have h1 : matchKey (ctx.bare K) p = matchKey ctx p := rfl
    have h2 : ∀ x, h5contains (ctx.bare K).file (ctx.bare K).file.root x =
        h5contains ctx.file ctx.file.root x := by
      intro x
      have : (ctx.bare K).file = ctx.file.bare K := rfl
      rw [this, bare_root K ctx.file [], bare_contains]
    simp only [targetLoop, h1, h2, bare_targetLoop it ps]
    rfl

theorem bare_objGet (o : H5Obj) (p : Str) :
    (objGet (ctx.bare K) (o.bare K) p).map Option.isSome = (objGet ctx o p).map Option.isSome := by
  unfold objGet
  rw [bare_asGroup]
  cases o.asGroup with
  | none => rfl
  | some g =>
    simp only [Option.map_some]
    have : (ctx.bare K).file = ctx.file.bare K := rfl
    rw [this, bare_get]
    cases h5get ctx.file g p with
    | error e => rfl
    | ok o => cases o <;> rfl

theorem bare_objContains (o : H5Obj) (v : Val) :
    objContains (ctx.bare K) (o.bare K) v = objContains ctx o v := by
  unfold objContains
  rw [bare_asGroup]
  cases o.asGroup with
  | none => cases v <;> rfl
  | some g =>
    cases v with
    | str s =>
      simp only [Option.map_some]
      have : (ctx.bare K).file = ctx.file.bare K := rfl
      rw [this, bare_contains]
    | _ => rfl

theorem bare_axisCheck (it : Item) (par : H5Obj) (v : Val) :
    axisCheck (ctx.bare K) (it.bare K) (par.bare K) v = axisCheck ctx it par v := by
  unfold axisCheck
  have h1 : matchKeyVal (ctx.bare K) v = matchKeyVal ctx v := rfl
  rw [h1]
  congr 1
  funext k
  cases v with
  | str a =>
    simp only [bare_record]
    congr 1
    funext _
    have h := bare_objGet K ctx par a
    cases hx : objGet ctx par a with
    | error e =>
      rw [hx] at h
      cases hy : objGet (ctx.bare K) (par.bare K) a with
      | error e' =>
        rw [hy] at h
        injection h with h
        subst h
        rfl
      | ok o => rw [hy] at h; cases h
    | ok o =>
      rw [hx] at h
      cases hy : objGet (ctx.bare K) (par.bare K) a with
      | error e' => rw [hy] at h; cases h
      | ok o' =>
        rw [hy] at h
        injection h with h
        simp only [W.lift_ok_bind, h]
  | _ => rfl

theorem bare_attribute (it : Item) :
    attributeVerify (ctx.bare K) (it.bare K) = attributeVerify ctx it := by
  unfold attributeVerify
  have ha : (it.bare K).addr = it.addr := rfl
  have hn : (it.bare K).name = it.name := rfl
  have ho : (it.bare K).obj = it.obj.bare K := rfl
  rw [ha, hn, bare_parent]
  have h1 : nxclassHandler (ctx.bare K) (it.bare K) = nxclassHandler ctx it := by
    unfold nxclassHandler
    rw [ho]
    cases it.obj with
    | node n => cases n <;> rfl
    | _ => rfl
  have h2 : targetHandler (ctx.bare K) (it.bare K) = targetHandler ctx it := by
    unfold targetHandler
    rw [ho]
    have hc : ∀ x, h5contains (ctx.bare K).file (ctx.bare K).file.root x =
        h5contains ctx.file ctx.file.root x := by
      intro x
      have : (ctx.bare K).file = ctx.file.bare K := rfl
      rw [this, bare_root K ctx.file [], bare_contains]
    simp only [bare_targetLoop, hc]
    cases it.obj with
    | node n => cases n <;> rfl
    | _ => rfl
  cases it.addr with
  | none => rfl
  | some a =>
    simp only
    cases it.parent with
    | none => rfl
    | some p =>
      have hp : (p.bare K).obj = p.obj.bare K := rfl
      have h3 : signalHandler (ctx.bare K) (it.bare K) (p.bare K) = signalHandler ctx it p := by
        unfold signalHandler
        rw [ho, hp, bare_isDataset]
        cases hi : it.obj with
        | val v =>
          simp only [H5Obj.bare]
          congr 1
          funext s
          split
          · rfl
          · cases p.obj with
            | node n =>
              cases n with
              | group n a k =>
                have hc : ∀ x, h5contains (ctx.bare K).file (.group n a (bareKids K k)) x =
                    h5contains ctx.file (.group n a k) x := by
                  intro x
                  have e : (.group n a (bareKids K k) : Node) = bareNode K [] (.group n a k) := by
                    simp only [bareNode]
                  have : (ctx.bare K).file = ctx.file.bare K := rfl
                  rw [this, e, bare_contains]
                simp only [hc]
                rfl
              | _ => rfl
            | _ => rfl
        | node n =>
          cases n <;> simp only [H5Obj.bare] <;>
            (cases p.obj with
              | node m => cases m <;> rfl
              | _ => rfl)
        | file f =>
          simp only [H5Obj.bare]
          cases p.obj with
          | node m => cases m <;> rfl
          | _ => rfl
        | none =>
          simp only [H5Obj.bare]
          cases p.obj with
          | node m => cases m <;> rfl
          | _ => rfl
      have h4 : axesHandler (ctx.bare K) (it.bare K) (p.bare K) = axesHandler ctx it p := by
        unfold axesHandler
        rw [ho]
        cases it.obj with
        | node n => cases n <;> rfl
        | val v =>
          simp only [H5Obj.bare]
          congr 1
          funext d
          congr 1
          refine W.forEach_congr fun x _ => ?_
          rw [hp, bare_axisCheck]
        | _ => rfl
      simp only [Option.map_some, h1, h2, h3, h4]
      rfl

theorem bare_childExists (t : Str) (v : Val) (it aIt : Item) :
    childExists (ctx.bare K) t v (it.bare K) (aIt.bare K) = childExists ctx t v it aIt := by
  unfold childExists
  have ho : (it.bare K).obj = it.obj.bare K := rfl
  rw [ho, bare_objContains]
  rfl

theorem bare_groupAttr (it : Item) (cls : ClassDef) (kv : Str × Val) :
    groupAttrCheck (ctx.bare K) (it.bare K) cls kv = groupAttrCheck ctx it cls kv := by
  unfold groupAttrCheck
  have ha : addrStr (it.bare K) = addrStr it := rfl
  have ht : ∀ k, Dict.get? (ctx.bare K).addresses k = (Dict.get? ctx.addresses k).map (Item.bare K) :=
    fun k => Dict.get?_mapVals _ _ _
  simp only [ha, ht]
  have he : (ctx.bare K).env = ctx.env := rfl
  rw [he]
  congr 1
  funext v
  congr 1
  funext a
  cases Dict.get? ctx.addresses (some (a ++ s%"@" ++ kv.1)) with
  | none => rfl
  | some aIt =>
    simp only [Option.map_some, bare_record, bare_childExists]
    rfl

theorem bare_childCheck (cls : ClassDef) (l : Str) (o : Option Node) :
    childCheck (ctx.bare K) cls (l, o.map (bareNode K l)) = childCheck ctx cls (l, o) := by
  unfold childCheck
  cases o with
  | none => rfl
  | some n =>
    have ht : ∀ k, Dict.get? (ctx.bare K).addresses k =
        (Dict.get? ctx.addresses k).map (Item.bare K) := fun k => Dict.get?_mapVals _ _ _
    simp only [Option.map_some, bareNode_name, ht]
    cases Dict.get? ctx.addresses (some n.name) with
    | none => rfl
    | some sub => cases n <;> simp only [Option.map_some, bareNode, bare_record]

theorem bare_groupKids (o : H5Obj) : groupKids (o.bare K) =
    (groupKids o).map fun p => (p.1, p.2.map (bareNode K p.1)) := by
  cases o with
  | file f => exact bareKids_toList K f.kids
  | node n =>
    cases n with
    | group n a k => exact bareKids_toList K k
    | _ => rfl
  | _ => rfl

theorem W.forEach_map {ε α β : Type} (g : α → β) (k : β → W ε Unit) : ∀ l : List α,
    W.forEach (l.map g) k = W.forEach l fun x => k (g x)
  | [] => rfl
  | x :: l => by rw [List.map_cons, W.forEach_cons, W.forEach_cons, W.forEach_map g k l]

theorem bare_validateGroup (it : Item) :
    validateGroup (ctx.bare K) (it.bare K) = validateGroup ctx it := by
  have ho : (it.bare K).obj = it.obj.bare K := rfl
  have h1 : ∀ cls, groupAttributes (ctx.bare K) (it.bare K) cls = groupAttributes ctx it cls := by
    intro cls
    unfold groupAttributes
    rw [ho, bare_attrs?]
    cases it.obj.attrs? with
    | none => rfl
    | some a => exact W.forEach_congr fun x _ => bare_groupAttr K ctx it cls x
  have h2 : ∀ cls, groupChildren (ctx.bare K) (it.bare K) cls = groupChildren ctx it cls := by
    intro cls
    unfold groupChildren
    rw [ho, bare_groupKids, W.forEach_map]
    exact W.forEach_congr fun x _ => bare_childCheck K ctx cls x.1 x.2
  have h3 : ∀ n cls, baseItems (ctx.bare K) (it.bare K) n cls = baseItems ctx it n cls := by
    intro n cls
    unfold baseItems
    congr 1
    · refine W.forEach_congr fun x _ => ?_
      unfold baseFieldCheck
      rw [ho, bare_objContains]
      rfl
    · funext _
      refine W.forEach_congr fun x _ => ?_
      unfold baseGroupCheck
      rw [ho, bare_objContains]
      rfl
  unfold validateGroup
  simp only [h1, h2, h3]
  rfl

end

end Punx
