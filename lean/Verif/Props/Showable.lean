import Verif.Spec.Showable
import Verif.Props.H5TreeAttrs
import Verif.Props.Catalog2
import Verif.Spec.Completes

/-!
# C149: which files `punx tree` can show
-/

namespace Punx
open Spec

/-- Nothing is raised. -/
private def Fine {α : Type} (x : Except PyErr α) : Prop := ∃ a, x = .ok a

private theorem fine_ok {α : Type} (a : α) : Fine (.ok a : Except PyErr α) ↔ True :=
  ⟨fun _ => trivial, fun _ => ⟨a, rfl⟩⟩

private theorem fine_error {α : Type} (e : PyErr) : Fine (.error e : Except PyErr α) ↔ False :=
  ⟨fun ⟨_, h⟩ => (by cases h), False.elim⟩

private theorem fine_bind {α β : Type} (x : Except PyErr α) (f : α → Except PyErr β) :
    Fine (x >>= f) ↔ ∃ a, x = .ok a ∧ Fine (f a) := by
  cases x with
  | error e => simp [bind, Except.bind, fine_error]
  | ok a => simp [bind, Except.bind]

private theorem fine_map {α β : Type} (x : Except PyErr α) (f : α → β) :
    Fine (x >>= fun a => .ok (f a)) ↔ Fine x := by
  rw [fine_bind]
  exact ⟨fun ⟨a, h, _⟩ => ⟨a, h⟩, fun ⟨a, h⟩ => ⟨a, h, (fine_ok _).2 trivial⟩⟩

private theorem fine_decode (env : Env) (v : Val) :
    Fine (decodeByteString env v) ↔ classReadable env (some v) := by
  have := decode_class_ok_iff env [(s%"NX_class", v)]
  simpa [attrGet, Fine] using this

private theorem fine_mapE {α β : Type} (f : α → Except PyErr β) (l : List α) :
    Fine (mapE f l) ↔ ∀ a ∈ l, Fine (f a) := by
  induction l with
  | nil => simp [mapE, fine_ok]
  | cons a as ih =>
    rw [List.forall_mem_cons, ← ih, mapE]
    cases f a with
    | error e => simp [fine_error]
    | ok b =>
      cases mapE f as with
      | error e => simp [fine_error]
      | ok bs => simp [fine_ok]

private theorem fine_concatE (l : List (Except PyErr (List TLine))) :
    Fine (concatE l) ↔ ∀ x ∈ l, Fine x := by
  induction l with
  | nil => simp [concatE, fine_ok]
  | cons a as ih =>
    rw [List.forall_mem_cons, ← ih]
    cases a with
    | error e => simp [concatE, fine_error]
    | ok b =>
      rw [concatE]
      cases concatE as with
      | error e => simp [fine_error]
      | ok bs => simp [fine_ok]

private theorem fine_assemble (ms : List Member) : Fine (assemble ms) ↔ ∀ m ∈ ms, Fine m.out := by
  rw [assemble, fine_concatE]
  constructor
  · intro h m hm
    have hs : m ∈ sortBy (fun a b : Member => strLe a.name b.name) ms := mem_sortBy.2 hm
    apply h
    cases hg : m.isGroup with
    | true => exact List.mem_append_right _ (List.mem_map.2 ⟨m, List.mem_filter.2 ⟨hs, hg⟩, rfl⟩)
    | false =>
      exact List.mem_append_left _ (List.mem_map.2 ⟨m, List.mem_filter.2 ⟨hs, by simp [hg]⟩, rfl⟩)
  · intro h x hx
    rcases List.mem_append.1 hx with hx | hx <;>
    · obtain ⟨m, hm, rfl⟩ := List.mem_map.1 hx
      exact h m (mem_sortBy.1 (List.mem_filter.1 hm).1)

private theorem fine_attrs (c : TreeCfg) (indent : Str) (attrs extra : List (Str × Val)) :
    Fine (renderAttrs c indent attrs extra) ↔
      ShownAttrs c.env c.showAttrs attrs ∧ ShownAttrs c.env c.showAttrs extra := by
  rw [renderAttrs]
  unfold ShownAttrs
  cases c.showAttrs with
  | false => simp [fine_ok]
  | true =>
    have h1 : ∀ kv : Str × Val, Fine (renderAttr c.env indent kv.1 kv.2) ↔
        classReadable c.env (some kv.2) := by
      intro kv
      rw [← fine_decode, renderAttr]
      exact fine_map _ _
    simp only [if_true, fine_mapE, h1, List.forall_mem_append, forall_const]

private theorem shown_external (c : TreeCfg) (k : LinkKind) :
    ShownAttrs c.env c.showAttrs (externalAttrs k) := by
  intro _ kv h
  cases k with
  | external a b e =>
    simp only [externalAttrs, List.mem_cons, List.not_mem_nil, or_false] at h
    rcases h with rfl | rfl <;> exact trivial
  | _ => cases h

private theorem fine_class (env : Env) (attrs : List (Str × Val)) :
    Fine (nxClassText env attrs) ↔ ShownClass env (attrs.lookup s%"NX_class") := by
  unfold nxClassText
  rw [attrGet_eq]
  cases attrs.lookup s%"NX_class" with
  | none => simp [ShownClass, fine_ok]
  | some v =>
    cases v with
    | str s => cases s <;> simp [ShownClass, fine_ok]
    | bytes b =>
      cases b with
      | nil => simp [ShownClass, fine_error]
      | cons x xs =>
        cases h : env.dec (x :: xs) <;>
          simp [ShownClass, fine_error, fine_ok, decodeByteString, h]
    | arrO xs => cases xs <;> simp [ShownClass, fine_error, fine_ok, decodeByteString]
    | arrS xs =>
      cases xs with
      | nil => simp [ShownClass, fine_error]
      | cons x xs =>
        cases h : env.dec x <;>
          simp [ShownClass, fine_error, fine_ok, decodeByteString, h]
    | _ => simp [ShownClass, fine_error]

private theorem fine_head (c : TreeCfg) (attrs : List (Str × Val)) (name indent : Str)
    (k : LinkKind) : Fine (renderHead c attrs name indent k) ↔
      ShownClass c.env (attrs.lookup s%"NX_class") ∧ ShownAttrs c.env c.showAttrs attrs := by
  rw [← fine_class, renderHead, fine_bind]
  have : ∀ cls : Str, Fine (do
      let a ← renderAttrs c indent attrs (externalAttrs k)
      (.ok ((⟨.header, indent ++ name ++ cls⟩ : TLine) :: a) : Except PyErr (List TLine))) ↔
      ShownAttrs c.env c.showAttrs attrs := by
    intro cls
    refine (fine_map (renderAttrs c indent attrs (externalAttrs k)) _).trans ?_
    rw [fine_attrs]
    exact and_iff_left (shown_external c k)
  constructor
  · rintro ⟨a, h1, h2⟩
    exact ⟨⟨a, h1⟩, (this a).1 h2⟩
  · rintro ⟨⟨a, h1⟩, h2⟩
    exact ⟨a, h1, (this a).2 h2⟩

private theorem fine_linked {c : TreeCfg} {attrs : List (Str × Val)} {name indent : Str} {v : Val}
    (h : attrs.lookup s%"target" = some v) (r : targetReadable c.env (some v)) :
    Fine (renderLinked c attrs name indent) := by
  unfold renderLinked
  rw [attrGet_eq, h]
  refine (fine_map _ _).2 ((fine_decode _ _).2 ?_)
  cases v with
  | arrS xs => exact r.2
  | bytes b => exact r
  | _ => trivial

private theorem fine_strings (env : Env) (d : DataInfo) {shape : List Nat}
    (hs : d.shape = some shape) : Fine (renderStrings env d) ↔
      match d.value with
      | .arrS xs => (∀ rows columns rest, shape = rows :: columns :: rest → rows = 0) ∧ ∀ x ∈ xs, (env.dec x).isSome
      | v => classReadable env (some v) := by
  unfold renderStrings hasRows
  have q : ∀ x : List UInt8, Fine (match env.dec x with
      | some s => (.ok ('"' :: s ++ s%"\"") : Except PyErr Str)
      | none => .error .unicodeDecodeError) ↔ (env.dec x).isSome = true := by
    intro x
    cases env.dec x <;> simp [fine_ok, fine_error]
  rw [hs]
  cases hv : d.value with
  | arrS xs =>
    cases shape with
    | nil =>
      refine (fine_map _ _).trans ((fine_mapE _ _).trans ?_)
      exact (forall₂_congr fun x _ => q x).trans (and_iff_right (by simp)).symm
    | cons a shape =>
      cases shape with
      | nil =>
        refine (fine_map _ _).trans ((fine_mapE _ _).trans ?_)
        exact (forall₂_congr fun x _ => q x).trans (and_iff_right (by simp)).symm
      | cons b shape =>
        cases a with
        | zero =>
          refine (fine_map _ _).trans ((fine_mapE _ _).trans ?_)
          exact (forall₂_congr fun x _ => q x).trans (and_iff_right (by rintro _ _ _ ⟨⟩; rfl)).symm
        | succ a => simp [fine_error]
  | _ => exact (fine_map _ _).trans (fine_decode _ _)

private theorem fine_data (c : TreeCfg) (d : DataInfo) (name indent : Str) :
    Fine (renderData c d name indent) ↔ ShownData c.env d := by
  unfold renderData ShownData
  cases hs : d.shape with
  | none =>
    cases hk : d.kind <;>
      simp [renderDsType, renderDsShape, hs, hk, bind, Except.bind, fine_error]
  | some shape =>
    have ht : ∃ t, renderDsType c d = .ok t := by
      unfold renderDsType
      rw [hs]
      cases d.kind <;> cases shape <;> exact ⟨_, rfl⟩
    have hh : ∃ t, renderDsShape d = .ok t := by
      unfold renderDsShape
      rw [hs]
      split
      · cases ‹some _ = none›
      · exact ⟨_, rfl⟩
      · exact ⟨_, rfl⟩
    obtain ⟨t, ht⟩ := ht
    obtain ⟨t', hh⟩ := hh
    rw [ht, hh]
    cases hk : d.kind with
    | S =>
      refine (fine_map _ _).trans ((fine_strings c.env d hs).trans ?_)
      constructor
      · exact fun h => ⟨shape, rfl, fun _ => h⟩
      · rintro ⟨s, h1, h2⟩
        cases h1
        exact h2 rfl
    | O => simp [bind, Except.bind, fine_ok]
    | other =>
      refine iff_of_true ?_ ⟨shape, rfl, nofun⟩
      simp only [bind, Except.bind]
      split
      all_goals first
        | exact ⟨_, rfl⟩
        | (exfalso; simp_all; done)
        | (split
           · split <;> exact ⟨_, rfl⟩
           · exact ⟨_, rfl⟩)

private theorem fine_asLink {c : TreeCfg} {attrs : List (Str × Val)} {oname : Str}
    (r : targetReadable c.env (attrs.lookup s%"target")) :
    Fine (renderAsLink c oname attrs) ↔
      ¬ (c.isNeXus = true ∧ attrs.lookup s%"target" = some (.arrNum [])) := by
  unfold renderAsLink
  rw [attrGet_eq]
  cases c.isNeXus with
  | false => simp [fine_ok]
  | true =>
    cases hv : attrs.lookup s%"target" with
    | none => simp [fine_ok]
    | some v =>
      rw [hv] at r
      have hd : Fine (decodeByteString c.env v) := by
        rw [fine_decode]
        cases v with
        | arrS xs => exact r.2
        | bytes b => exact r
        | _ => trivial
      obtain ⟨w, hw⟩ := hd
      cases v with
      | arrNum xs =>
        have r : xs.length ≤ 1 := r
        cases xs with
        | nil => simp [decodeByteString, bind, Except.bind, fine_error]
        | cons x xs =>
          have : xs = [] := List.eq_nil_of_length_eq_zero (by simpa using r)
          subst this
          simp [decodeByteString, bind, Except.bind, fine_ok]
      | _ =>
        refine iff_of_true ?_ (by simp)
        simp only [if_true, hw, bind, Except.bind]
        cases w <;> first
          | exact ⟨_, rfl⟩
          | (exfalso; revert hw; simp only [decodeByteString]; split <;> simp; done)
          | (exfalso; revert hw; simp only [decodeByteString]; split
             · cases decodeAll asciiDecode _ <;> simp
             · simp)
          | (exfalso; revert hw; simp [decodeByteString])

private theorem fine_dataset {c : TreeCfg} {attrs : List (Str × Val)} {oname name indent : Str}
    {d : DataInfo} (r : targetReadable c.env (attrs.lookup s%"target")) :
    Fine (renderDataset c oname attrs d name indent) ↔
      ¬ (c.isNeXus = true ∧ attrs.lookup s%"target" = some (.arrNum [])) ∧
      (¬ (c.isNeXus = true ∧ AnyTarget c.env attrs oname) →
        ShownData c.env d ∧ ShownAttrs c.env c.showAttrs attrs) := by
  rw [← fine_asLink (oname := oname) r, renderDataset, fine_bind]
  have inner : Fine (do
      let s ← renderData c d name indent
      let a ← renderAttrs c indent attrs []
      (.ok (s ++ a) : Except PyErr (List TLine))) ↔
      ShownData c.env d ∧ ShownAttrs c.env c.showAttrs attrs := by
    rw [fine_bind, ← fine_data c d name indent]
    have : ∀ s : List TLine, Fine (do
        let a ← renderAttrs c indent attrs []
        (.ok (s ++ a) : Except PyErr (List TLine))) ↔ ShownAttrs c.env c.showAttrs attrs := by
      intro s
      refine (fine_map (renderAttrs c indent attrs []) _).trans ?_
      rw [fine_attrs]
      exact and_iff_left (fun _ _ h => by cases h)
    simp only [this]
    exact ⟨fun ⟨a, h1, h2⟩ => ⟨⟨a, h1⟩, h2⟩, fun ⟨⟨a, h1⟩, h2⟩ => ⟨a, h1, h2⟩⟩
  constructor
  · rintro ⟨b, h1, h2⟩
    refine ⟨⟨b, h1⟩, fun hn => ?_⟩
    have hb := renderAsLink_ok h1
    cases b with
    | true => exact absurd (hb.1 rfl) hn
    | false => exact inner.1 h2
  · rintro ⟨⟨b, h1⟩, h2⟩
    refine ⟨b, h1, ?_⟩
    have hb := renderAsLink_ok h1
    cases b with
    | true =>
      obtain ⟨_, v, hv, _⟩ := hb.1 rfl
      exact fine_linked hv (hv ▸ r)
    | false => exact inner.2 (h2 (fun h => by cases hb.2 h))

private theorem shownBehind_iff (k : LinkKind) : followed k = true ↔ ShownBehind k := by
  cases k with
  | external a b e => simp [followed, ShownBehind]
  | _ => simp [followed, ShownBehind]

private theorem fine_unfollowed (c : TreeCfg) (link : Str) (k : LinkKind) (indent : Str) :
    Fine (renderUnfollowed c link k indent) := by
  cases k with
  | soft p => exact ⟨_, rfl⟩
  | _ =>
    refine (fine_map (renderAttrs c _ _ []) _).2 ?_
    rw [fine_attrs]
    exact ⟨shown_external c _, fun _ _ h => by cases h⟩

private theorem fine_inside {h : Except PyErr (List TLine)} {ms : List Member}
    {P Q : Prop} (h1 : Fine h ↔ P) (h2 : Fine (assemble ms) ↔ Q) :
    Fine (do
      let h ← h
      let m ← assemble ms
      (.ok (h ++ m) : Except PyErr (List TLine))) ↔ P ∧ Q := by
  rw [fine_bind, ← h1, ← h2]
  have : ∀ s : List TLine, Fine (do
      let a ← assemble ms
      (.ok (s ++ a) : Except PyErr (List TLine))) ↔ Fine (assemble ms) :=
    fun s => fine_map (assemble ms) _
  simp only [this]
  exact ⟨fun ⟨a, h1, h2⟩ => ⟨⟨a, h1⟩, h2⟩, fun ⟨⟨a, h1⟩, h2⟩ => ⟨a, h1, h2⟩⟩

mutual
private theorem fine_member (c : TreeCfg) (link : Str) (k : LinkKind) (indent : Str) (n : Node) :
    Fine (renderMember c link k indent n).out ↔ Showable c.env c.isNeXus c.showAttrs n := by
  cases n with
  | group oname attrs kids =>
    rw [renderMember, Showable, ← isNeXusLink_ok_iff c.env attrs oname]
    cases hl : isNeXusLink c.env attrs oname with
    | error e => simp [fine_error]
    | ok b =>
      have r := (isNeXusLink_ok_iff c.env attrs oname).1 ⟨b, hl⟩
      have hb := isNeXusLink_ok hl
      cases b with
      | true =>
        obtain ⟨v, hv, _⟩ := hb.1 rfl
        exact iff_of_true (fine_linked hv (hv ▸ r)) ⟨⟨_, rfl⟩, fun h => absurd (hb.1 rfl) h⟩
      | false =>
        have hn : ¬ NexusLink c.env attrs oname := fun h => by cases hb.2 h
        refine (fine_inside (fine_head c attrs link _ k)
          ((fine_assemble _).trans (fine_members c (indent ++ s%"  ") kids))).trans ?_
        rw [and_assoc]
        exact ⟨fun h => ⟨⟨_, rfl⟩, fun _ => h⟩, fun h => h.2 hn⟩
  | dataset oname attrs d =>
    rw [renderMember, Showable, ← isNeXusLink_ok_iff c.env attrs oname]
    cases hl : isNeXusLink c.env attrs oname with
    | error e => simp [fine_error]
    | ok b =>
      have r := (isNeXusLink_ok_iff c.env attrs oname).1 ⟨b, hl⟩
      have hb := isNeXusLink_ok hl
      cases b with
      | true =>
        obtain ⟨v, hv, _⟩ := hb.1 rfl
        exact iff_of_true (fine_linked hv (hv ▸ r)) ⟨⟨_, rfl⟩, fun h => absurd (hb.1 rfl) h⟩
      | false =>
        have hn : ¬ NexusLink c.env attrs oname := fun h => by cases hb.2 h
        have hx : Fine (renderAttrs c (indent ++ s%"  ") (externalAttrs k) []) := by
          rw [fine_attrs]
          exact ⟨shown_external c _, fun _ _ h => by cases h⟩
        have key : Fine (do
            let s ← renderDataset c oname attrs d link (indent ++ s%"  ")
            let a ← renderAttrs c (indent ++ s%"  ") (externalAttrs k) []
            (.ok (s ++ a) : Except PyErr (List TLine))) ↔
            Fine (renderDataset c oname attrs d link (indent ++ s%"  ")) := by
          rw [fine_bind]
          have : ∀ s : List TLine, Fine (do
              let a ← renderAttrs c (indent ++ s%"  ") (externalAttrs k) []
              (.ok (s ++ a) : Except PyErr (List TLine))) :=
            fun s => (fine_map (renderAttrs c (indent ++ s%"  ") (externalAttrs k) []) _).2 hx
          exact ⟨fun ⟨a, h, _⟩ => ⟨a, h⟩, fun ⟨a, h⟩ => ⟨a, h, this a⟩⟩
        refine key.trans ((fine_dataset r).trans ?_)
        exact ⟨fun h => ⟨⟨_, rfl⟩, fun _ => h⟩, fun h => h.2 hn⟩
  | datatype oname attrs =>
    rw [renderMember, Showable, ← isNeXusLink_ok_iff c.env attrs oname]
    cases hl : isNeXusLink c.env attrs oname with
    | error e => simp [fine_error]
    | ok b =>
      have r := (isNeXusLink_ok_iff c.env attrs oname).1 ⟨b, hl⟩
      have hb := isNeXusLink_ok hl
      cases b with
      | true =>
        obtain ⟨v, hv, _⟩ := hb.1 rfl
        exact iff_of_true (fine_linked hv (hv ▸ r)) ⟨⟨_, rfl⟩, hb.1 rfl⟩
      | false =>
        refine iff_of_false (fun h => (fine_error _).1 h) (fun h => ?_)
        cases hb.2 h.2
private theorem fine_members (c : TreeCfg) (indent : Str) (ks : Kids) :
    (∀ m ∈ renderMembers c indent ks, Fine m.out) ↔
      ShowableKids c.env c.isNeXus c.showAttrs ks := by
  cases ks with
  | nil => simp [renderMembers, ShowableKids]
  | cons link k n rest =>
    rw [renderMembers, ShowableKids, List.forall_mem_cons, fine_members c indent rest]
    refine and_congr_left fun _ => ?_
    rw [← shownBehind_iff]
    cases hf : followed k with
    | true => simpa using fine_member c link k indent n
    | false => simpa using fine_unfollowed c link k indent
  | broken link k rest =>
    rw [renderMembers, ShowableKids, List.forall_mem_cons, fine_members c indent rest]
    exact and_iff_right (fine_unfollowed c link k indent)
end

/-- `punx tree` shows a file exactly if it can be opened, it can be told whether it is a NeXus
file, and the root and all objects that are reached by links that are followed can be shown. -/
theorem tree_shown_iff (env : Env) (shown : Int) (showAttrs : Bool) (fname : Str)
    (fs : FileState) : (∃ ts, treeReport env shown showAttrs fname fs = .ok (some ts)) ↔
      ∃ f nexus, fs = .hdf5 f ∧ ToldNexus env f nexus ∧
        ShownClass env (f.attrs.lookup s%"NX_class") ∧ ShownAttrs env showAttrs f.attrs ∧
        ShowableKids env nexus showAttrs f.kids := by
  have key : ∀ (b : Bool) (f : H5File), Fine (renderFile ⟨env, b, showAttrs, shown⟩ fname f) ↔
      ShownClass env (f.attrs.lookup s%"NX_class") ∧ ShownAttrs env showAttrs f.attrs ∧
        ShowableKids env b showAttrs f.kids := by
    intro b f
    rw [renderFile, ← and_assoc]
    exact fine_inside (fine_head _ _ _ _ _)
      ((fine_assemble _).trans (fine_members ⟨env, b, showAttrs, shown⟩ [] f.kids))
  have told : ∀ (b : Bool) (f : H5File), isNeXusFile env (.hdf5 f) = .ok (some b) ↔
      ToldNexus env f b := by
    intro b f
    cases b with
    | true => exact (isNeXusFile_spec env).2.2.1 f
    | false => exact (isNeXusFile_spec env).2.2.2.1 f
  constructor
  · rintro ⟨ts, h⟩
    obtain ⟨f, b, ls, rfl, h1, h2, -⟩ := treeReport_ok.1 h
    cases b with
    | none => exact absurd h1 ((isNeXusFile_spec env).2.2.2.2 f)
    | some b => exact ⟨f, b, rfl, (told b f).1 h1, (key b f).1 ⟨ls, h2⟩⟩
  · rintro ⟨f, b, rfl, h1, h2⟩
    obtain ⟨ls, h2⟩ := (key b f).2 h2
    exact ⟨_, treeReport_ok.2 ⟨f, some b, ls, rfl, (told b f).2 h1, h2, rfl⟩⟩

private theorem shownAttrs_hide {env : Env} {attrs : List (Str × Val)} :
    ShownAttrs env false attrs := fun h => by cases h

mutual
private theorem showable_hide {env : Env} {nexus sa : Bool} (n : Node)
    (h : Showable env nexus sa n) : Showable env nexus false n := by
  cases n with
  | group name attrs kids =>
    rw [Showable] at h ⊢
    exact ⟨h.1, fun hn => ⟨(h.2 hn).1, shownAttrs_hide, showableKids_hide kids (h.2 hn).2.2⟩⟩
  | dataset name attrs d =>
    rw [Showable] at h ⊢
    exact ⟨h.1, fun hn => ⟨(h.2 hn).1, fun ht => ⟨((h.2 hn).2 ht).1, shownAttrs_hide⟩⟩⟩
  | datatype name attrs =>
    rw [Showable] at h ⊢
    exact h
private theorem showableKids_hide {env : Env} {nexus sa : Bool} (ks : Kids)
    (h : ShowableKids env nexus sa ks) : ShowableKids env nexus false ks := by
  cases ks with
  | nil => rw [ShowableKids]; trivial
  | cons l k n rest =>
    rw [ShowableKids] at h ⊢
    exact ⟨fun hf => showable_hide n (h.1 hf), showableKids_hide rest h.2⟩
  | broken l k rest =>
    rw [ShowableKids] at h ⊢
    exact showableKids_hide rest h
end

/-- Whether a file is shown depends neither on the name of the file nor on how many items of an
array are shown, and hiding the attributes never makes the report fail. -/
theorem tree_shown_options {env : Env} {shown : Int} {sa : Bool} {fname : Str} {fs : FileState}
    (h : ∃ ts, treeReport env shown sa fname fs = .ok (some ts)) (shown' : Int) (fname' : Str) :
    (∃ ts, treeReport env shown' sa fname' fs = .ok (some ts)) ∧
      ∃ ts, treeReport env shown' false fname' fs = .ok (some ts) := by
  obtain ⟨f, b, h1, h2, h3, h4, h5⟩ := (tree_shown_iff _ _ _ _ _).1 h
  exact ⟨(tree_shown_iff _ _ _ _ _).2 ⟨f, b, h1, h2, h3, h4, h5⟩,
    (tree_shown_iff _ _ _ _ _).2 ⟨f, b, h1, h2, h3, shownAttrs_hide,
      showableKids_hide _ h5⟩⟩

private theorem usual_class {env : Env} (h0 : ∀ s, env.dec [] = some s → s = []) {o : Option Val}
    (h : ∀ v, o = some v → ∃ s, s ≠ [] ∧ TextOf env v s) : ShownClass env o := by
  cases o with
  | none => trivial
  | some v =>
    obtain ⟨s, hs, rfl | ⟨b, rfl, hb⟩⟩ := h v rfl
    · trivial
    · refine ⟨?_, by rw [hb]; rfl⟩
      rintro rfl
      exact hs (h0 s hb)

mutual
private theorem usual_showable {env : Env} {nexus sa : Bool} (h0 : ∀ s, env.dec [] = some s → s = []) :
    (n : Node) → AllNodes (NodeTargetOk env) n → AllNodes (Usual env) n →
    (sa = true → AllNodes (AttrsReadable env) n) → Showable env nexus sa n
  | .group name a ks, ht, hu, hr => by
    rw [AllNodes] at ht hu
    rw [Showable]
    refine ⟨ht.1, fun _ => ⟨usual_class h0 hu.1, fun hs => ?_,
      usual_showableKids h0 ks ht.2 hu.2 fun hs => ?_⟩⟩
    · have := hr hs
      rw [AllNodes] at this
      exact this.1
    · have := hr hs
      rw [AllNodes] at this
      exact this.2
  | .dataset name a d, ht, hu, hr => by
    rw [AllNodes] at ht hu
    rw [Showable]
    refine ⟨ht, fun _ => ⟨fun h => hu.2 h.2, fun _ => ⟨hu.1, fun hs => ?_⟩⟩⟩
    have := hr hs
    rw [AllNodes] at this
    exact this
  | .datatype name a, _, hu, _ => by
    rw [AllNodes] at hu
    exact hu.elim
private theorem usual_showableKids {env : Env} {nexus sa : Bool}
    (h0 : ∀ s, env.dec [] = some s → s = []) :
    (ks : Kids) → AllKids (NodeTargetOk env) ks → AllKids (Usual env) ks →
    (sa = true → AllKids (AttrsReadable env) ks) → ShowableKids env nexus sa ks
  | .nil, _, _, _ => by rw [ShowableKids]; trivial
  | .cons l k n rest, ht, hu, hr => by
    rw [AllKids] at ht hu
    rw [ShowableKids]
    refine ⟨fun _ => usual_showable h0 n ht.1 hu.1 fun hs => ?_,
      usual_showableKids h0 rest ht.2 hu.2 fun hs => ?_⟩
    · have := hr hs
      rw [AllKids] at this
      exact this.1
    · have := hr hs
      rw [AllKids] at this
      exact this.2
  | .broken l k rest, ht, hu, hr => by
    rw [AllKids] at ht hu
    rw [ShowableKids]
    refine usual_showableKids h0 rest ht hu fun hs => ?_
    have := hr hs
    rw [AllKids] at this
    exact this
end

private theorem allKids_mem {P : Node → Prop} {l : Str} {n : Node} : (ks : Kids) → AllKids P ks →
    (l, some n) ∈ ks.toList → P n
  | .nil, _, hm => by cases hm
  | .cons l' k n' rest, h, hm => by
    rw [AllKids] at h
    rcases List.mem_cons.1 hm with e | hm
    · cases e
      cases n <;> (have := h.1; rw [AllNodes] at this; first | exact this.1 | exact this)
    · exact allKids_mem rest h.2 hm
  | .broken l' k rest, h, hm => by
    rw [AllKids] at h
    rcases List.mem_cons.1 hm with e | hm
    · cases e
    · exact allKids_mem rest h hm

/-- A file whose catalogue can be built by the validation and that is written as usual is shown. -/
theorem usual_file_shown {env : Env} {shown : Int} {sa : Bool} {fname : Str} {f : H5File}
    (h0 : ∀ s, env.dec [] = some s → s = []) (hr : FileReadable env f) (hu : AllNodes (Usual env) f.root)
    (ha : sa = true → AllNodes (AttrsReadable env) f.root) :
    ∃ ts, treeReport env shown sa fname (.hdf5 f) = .ok (some ts) := by
  rw [H5File.root, AllNodes] at hu
  have bad : ∀ name n, (name, some n) ∈ f.kids.toList → ¬ BadClass env n := by
    intro name n hm hb
    have hn := allKids_mem f.kids hu.2 hm
    obtain ⟨_, a, ks, v, rfl, hv, hb⟩ := hb
    obtain ⟨s, hs, ht⟩ := hn v hv
    rcases ht with rfl | ⟨b, rfl, hd⟩
    · rcases hb with (h | h | h) | ⟨b, h, -⟩ | ⟨b, xs, h, -⟩ <;> cases h
    · rcases hb with (h | h | h) | ⟨b, h, h'⟩ | ⟨b, xs, h, -⟩
      iterate 3 cases h
      · cases h
        rw [hd] at h'
        cases h'
      · cases h
  obtain ⟨b, hb, -⟩ := isNeXusFile_readable env f bad
  refine (tree_shown_iff _ _ _ _ _).2 ⟨f, b, rfl, ?_, usual_class h0 hu.1, fun hs => ?_,
    usual_showableKids h0 _ hr.targets hu.2 fun hs => ?_⟩
  · cases b with
    | true => exact ((isNeXusFile_spec env).2.2.1 f).1 hb
    | false => exact ((isNeXusFile_spec env).2.2.2.1 f).1 hb
  · have := ha hs
    rw [H5File.root, AllNodes] at this
    exact this.1
  · have := ha hs
    rw [H5File.root, AllNodes] at this
    exact this.2

end Punx
