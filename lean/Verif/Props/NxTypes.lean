import Verif.Props.SchemaManager3
import Verif.Props.NxdlSchema2

/-!
# C84: types of data and units in `nxdlTypes.xsd`
-/

namespace Punx
open Spec

theorem needAttr_ok {n : XsNode} {k v : Str} :
    needAttr n k = .ok v ↔ Dict.get? n.attrib k = some v := by
  unfold needAttr
  cases Dict.get? n.attrib k <;> simp

theorem needAttr_ok_iff {n : XsNode} {k : Str} : (∃ v, needAttr n k = .ok v) ↔ HasAttr n k := by
  simp only [needAttr_ok, HasAttr]

/-- One child can be read. -/
def ItemReadable (c : XsNode) : Prop :=
  c = .comment ∨ c.isXs s%"annotation" = true ∨
    (c.isXs s%"list" = true ∧ HasAttr c s%"itemType") ∨
    (c.isXs s%"restriction" = true ∧ HasAttr c s%"base" ∧
      ∀ e ∈ c.select s%"enumeration", HasAttr e s%"value") ∨
    (c.isXs s%"union" = true ∧ HasAttr c s%"memberTypes")

theorem map_ok_iff {α β : Type} {x : Except PyErr α} {f : α → β} :
    (∃ b, x.map f = .ok b) ↔ ∃ a, x = .ok a := by
  cases x with
  | error e => exact ⟨fun ⟨b, h⟩ => (by cases h), fun ⟨b, h⟩ => (by cases h)⟩
  | ok a => exact ⟨fun _ => ⟨a, rfl⟩, fun _ => ⟨f a, rfl⟩⟩

theorem nxTypeItem_ok_iff (o : NxType) (c : XsNode) :
    (∃ o', nxTypeItem o c = .ok o') ↔ ItemReadable c := by
  cases c with
  | comment => exact ⟨fun _ => .inl rfl, fun _ => ⟨o, rfl⟩⟩
  | elem xs t l a ks =>
    simp only [nxTypeItem]
    have hne : XsNode.elem xs t l a ks ≠ .comment := fun h => by cases h
    generalize XsNode.elem xs t l a ks = c at *
    have other : ∀ {x y : Str}, c.isXs x = true → c.isXs y = true → x ≠ y → False :=
      fun h h' hn => hn (isXs_tag h h')
    unfold ItemReadable
    by_cases h1 : c.isXs s%"annotation" = true
    · rw [if_pos h1]
      exact ⟨fun _ => .inr (.inl h1), fun _ => ⟨o, rfl⟩⟩
    · rw [if_neg h1]
      by_cases h2 : c.isXs s%"list" = true
      · rw [if_pos h2, map_ok_iff, needAttr_ok_iff]
        constructor
        · exact fun h => .inr (.inr (.inl ⟨h2, h⟩))
        · rintro (h | h | ⟨_, h⟩ | ⟨h, _⟩ | ⟨h, _⟩)
          · exact absurd h hne
          · exact absurd h h1
          · exact h
          · exact (other h2 h (by decide)).elim
          · exact (other h2 h (by decide)).elim
      · rw [if_neg h2]
        by_cases h3 : c.isXs s%"restriction" = true
        · rw [if_pos h3]
          have key : (∃ o', (do
              let b ← needAttr c s%"base"
              let vs ← (c.select s%"enumeration").mapM (needAttr · s%"value")
              Except.ok { o with restriction := some (stripNs b), values := some vs } :
                Except PyErr NxType) = .ok o') ↔
              HasAttr c s%"base" ∧ ∀ e ∈ c.select s%"enumeration", HasAttr e s%"value" := by
            rw [← needAttr_ok_iff]
            cases hb : needAttr c s%"base" with
            | error e => simp [bind, Except.bind]
            | ok b =>
              have := mapM_ok_iff (f := fun e => needAttr e s%"value")
                (l := c.select s%"enumeration")
              simp only [needAttr_ok_iff] at this
              rw [← this]
              cases hm : (c.select s%"enumeration").mapM (fun e => needAttr e s%"value") with
              | error e => simp [bind, Except.bind]
              | ok vs => simp [bind, Except.bind]
          rw [key]
          constructor
          · exact fun h => .inr (.inr (.inr (.inl ⟨h3, h⟩)))
          · rintro (h | h | ⟨h, _⟩ | ⟨_, h⟩ | ⟨h, _⟩)
            · exact absurd h hne
            · exact absurd h h1
            · exact absurd h h2
            · exact h
            · exact (other h3 h (by decide)).elim
        · rw [if_neg h3]
          by_cases h4 : c.isXs s%"union" = true
          · rw [if_pos h4, map_ok_iff, needAttr_ok_iff]
            constructor
            · exact fun h => .inr (.inr (.inr (.inr ⟨h4, h⟩)))
            · rintro (h | h | ⟨h, _⟩ | ⟨h, _⟩ | ⟨_, h⟩)
              · exact absurd h hne
              · exact absurd h h1
              · exact absurd h h2
              · exact absurd h h3
              · exact h
          · rw [if_neg h4]
            constructor
            · rintro ⟨_, h⟩; cases h
            · rintro (h | h | ⟨h, _⟩ | ⟨h, _⟩ | ⟨h, _⟩)
              · exact absurd h hne
              · exact absurd h h1
              · exact absurd h h2
              · exact absurd h h3
              · exact absurd h h4

theorem foldlM_ok_iff {α β : Type} {f : β → α → Except PyErr β} {P : α → Prop}
    (hf : ∀ b a, (∃ b', f b a = .ok b') ↔ P a) : ∀ (l : List α) (b : β),
    (∃ b', l.foldlM f b = .ok b') ↔ ∀ a ∈ l, P a
  | [], b => by simp [pure, Except.pure]
  | a :: l, b => by
    rw [List.foldlM_cons]
    cases h : f b a with
    | error e =>
      constructor
      · rintro ⟨_, h'⟩; cases h'
      · intro h'
        obtain ⟨b', h''⟩ := (hf b a).2 (h' a List.mem_cons_self)
        rw [h] at h''
        cases h''
    | ok b1 =>
      have h1 : P a := (hf b a).1 ⟨b1, h⟩
      have := foldlM_ok_iff hf l b1
      simp only [bind, Except.bind, List.mem_cons, forall_eq_or_imp, h1, true_and]
      exact this

theorem readNxType_ok_iff (n : XsNode) : (∃ o, readNxType n = .ok o) ↔ NxReadable n :=
  foldlM_ok_iff nxTypeItem_ok_iff n.kids {}

/-! ## the loop over the file -/

/-- Neither a comment nor an annotation. -/
def isTop (n : XsNode) : Bool :=
  match n with
  | .comment => false
  | _ => !n.isXs s%"annotation"

/-- The declarations of a list of nodes. -/
def topNodes (ns : List XsNode) : List XsNode := ns.filter isTop

theorem mem_topNodes {ns : List XsNode} {n : XsNode} :
    n ∈ topNodes ns ↔ n ∈ ns ∧ n ≠ .comment ∧ n.isXs s%"annotation" = false := by
  unfold topNodes
  rw [List.mem_filter]
  cases n with
  | comment => simp [isTop]
  | elem xs t l a ks => simp [isTop]

/-- `db[obj.name] = obj` -/
def putNx (db : Dict Str NxType) (n : XsNode) (o : NxType) : Dict Str NxType :=
  match Dict.get? n.attrib s%"name" with
  | none => db
  | some k => Dict.set db k o

theorem readNxTypes_cons (n : XsNode) (ns : List XsNode) (db : Dict Str NxType) :
    readNxTypes (n :: ns) db =
      if isTop n = true then readNxType n >>= fun o => readNxTypes ns (putNx db n o)
      else readNxTypes ns db := by
  cases n with
  | comment => rfl
  | elem xs t l a ks =>
    rw [readNxTypes]
    · simp only [isTop]
      by_cases h : (XsNode.elem xs t l a ks).isXs s%"annotation" = true
      · simp [h]
      · simp only [h, Bool.false_eq_true, if_false, Bool.not_false, if_true]
        unfold putNx
        cases readNxType (XsNode.elem xs t l a ks) with
        | error e => rfl
        | ok o =>
          simp only [bind, Except.bind]
          cases Dict.get? (XsNode.elem xs t l a ks).attrib s%"name" <;> rfl
    · intro h; cases h

theorem topNodes_cons (n : XsNode) (ns : List XsNode) :
    topNodes (n :: ns) = if isTop n = true then n :: topNodes ns else topNodes ns :=
  List.filter_cons

theorem readNxTypes_ok_iff : ∀ (ns : List XsNode) (db : Dict Str NxType),
    (∃ db', readNxTypes ns db = .ok db') ↔ ∀ n ∈ topNodes ns, NxReadable n
  | [], db => by simp [readNxTypes, topNodes]
  | n :: ns, db => by
    rw [readNxTypes_cons, topNodes_cons]
    split
    · cases h : readNxType n with
      | error e =>
        constructor
        · rintro ⟨_, h'⟩; cases h'
        · intro h'
          obtain ⟨o, h''⟩ := (readNxType_ok_iff n).2 (h' n List.mem_cons_self)
          rw [h] at h''
          cases h''
      | ok o =>
        have h1 : NxReadable n := (readNxType_ok_iff n).1 ⟨o, h⟩
        have := readNxTypes_ok_iff ns (putNx db n o)
        simp only [bind, Except.bind, List.mem_cons, forall_eq_or_imp, h1, true_and]
        exact this
    · exact readNxTypes_ok_iff ns db

theorem get?_putNx (db : Dict Str NxType) (n : XsNode) (o : NxType) (k : Str) :
    Dict.get? (putNx db n o) k =
      if Dict.get? n.attrib s%"name" = some k then some o else Dict.get? db k := by
  unfold putNx
  cases h : Dict.get? n.attrib s%"name" with
  | none => simp
  | some x => simp [Dict.get?_set]

/-- The last declaration of a name counts. -/
theorem readNxTypes_get : ∀ {ns : List XsNode} {db db' : Dict Str NxType},
    readNxTypes ns db = .ok db' → ∀ k o, Dict.get? db' k = some o ↔
      (∃ before n after, topNodes ns = before ++ n :: after ∧ HasName n k ∧ readNxType n = .ok o ∧
        ∀ m ∈ after, ¬ HasName m k) ∨
      (Dict.get? db k = some o ∧ ∀ m ∈ topNodes ns, ¬ HasName m k)
  | [], db, db', h, k, o => by
    injection h with h
    subst h
    simp [topNodes]
  | n :: ns, db, db', h, k, o => by
    rw [readNxTypes_cons] at h
    rw [topNodes_cons]
    split at h
    · rename_i hn
      rw [if_pos hn]
      cases hr : readNxType n with
      | error e => rw [hr] at h; cases h
      | ok o1 =>
        rw [hr] at h
        have ih := readNxTypes_get h k o
        rw [ih, get?_putNx]
        constructor
        · rintro (⟨b, m, a, h1, h2⟩ | ⟨h1, h2⟩)
          · exact .inl ⟨n :: b, m, a, by rw [h1]; rfl, h2⟩
          · split at h1
            · rename_i hk
              injection h1 with h1
              subst h1
              exact .inl ⟨[], n, topNodes ns, rfl, hk, hr, h2⟩
            · rename_i hk
              refine .inr ⟨h1, ?_⟩
              intro m hm
              rcases List.mem_cons.1 hm with rfl | hm
              · exact hk
              · exact h2 m hm
        · rintro (⟨b, m, a, h1, h2, h3, h4⟩ | ⟨h1, h2⟩)
          · cases b with
            | nil =>
              injection h1 with h1 h5
              subst h1
              subst h5
              rw [hr] at h3
              injection h3 with h3
              subst h3
              right
              exact ⟨if_pos h2, h4⟩
            | cons x b =>
              injection h1 with _ h5
              exact .inl ⟨b, m, a, h5, h2, h3, h4⟩
          · right
            exact ⟨(if_neg (h2 n List.mem_cons_self)).trans h1, fun m hm => h2 m (List.mem_cons_of_mem _ hm)⟩
    · rename_i hn
      rw [if_neg hn]
      exact readNxTypes_get h k o

theorem readNxTypes_keys : ∀ {ns : List XsNode} {db db' : Dict Str NxType},
    readNxTypes ns db = .ok db' → ∀ k, Dict.has db' k = true ↔
      (∃ n ∈ topNodes ns, HasName n k) ∨ Dict.has db k = true
  | [], db, db', h, k => by
    injection h with h
    subst h
    simp [topNodes]
  | n :: ns, db, db', h, k => by
    rw [readNxTypes_cons] at h
    rw [topNodes_cons]
    split at h
    · rename_i hn
      rw [if_pos hn]
      cases hr : readNxType n with
      | error e => rw [hr] at h; cases h
      | ok o1 =>
        rw [hr] at h
        have ih := readNxTypes_keys h k
        rw [ih]
        have : Dict.has (putNx db n o1) k = true ↔ HasName n k ∨ Dict.has db k = true := by
          unfold putNx HasName
          cases hx : Dict.get? n.attrib s%"name" with
          | none => simp
          | some x =>
            dsimp only
            rw [Dict.has_iff, Dict.has_iff, Dict.mem_keys_set, Option.some.injEq]
            constructor
            · rintro (rfl | h)
              · exact .inl rfl
              · exact .inr h
            · rintro (rfl | h)
              · exact .inl rfl
              · exact .inr h
        rw [this]
        simp only [List.mem_cons, exists_eq_or_imp]
        constructor
        · rintro (h | h | h)
          · exact .inl (.inr h)
          · exact .inl (.inl h)
          · exact .inr h
        · rintro ((h | h) | h)
          · exact .inr (.inl h)
          · exact .inl h
          · exact .inr (.inr h)
    · rename_i hn
      rw [if_neg hn]
      exact readNxTypes_keys h k

theorem get?_erase {κ β : Type} [DecidableEq κ] (k x : κ) : ∀ (d : Dict κ β),
    Dict.get? (Dict.erase d k) x = if x = k then none else Dict.get? d x
  | [] => by simp [Dict.erase, Dict.get?]
  | (y, v) :: d => by
    have ih := get?_erase k x d
    unfold Dict.erase at ih ⊢
    rw [List.filter_cons]
    by_cases hy : y = k
    · subst hy
      simp only [ne_eq, not_true_eq_false, decide_false, Bool.false_eq_true, if_false]
      rw [ih]
      by_cases hx : x = y
      · simp [hx]
      · rw [if_neg hx, if_neg hx, Dict.get?, if_neg (fun h => hx h.symm)]
    · simp only [ne_eq, hy, not_false_eq_true, decide_true, if_true]
      rw [Dict.get?, Dict.get?, ih]
      by_cases hx : y = x
      · subst hx
        simp [hy]
      · simp [hx]

theorem has_get? {κ β : Type} [DecidableEq κ] {d : Dict κ β} {k : κ} :
    Dict.has d k = true ↔ ∃ v, Dict.get? d k = some v := by
  rw [Dict.has_iff]
  cases h : Dict.get? d k with
  | none => simp [Dict.get?_eq_none.1 h]
  | some v =>
    constructor
    · exact fun _ => ⟨v, rfl⟩
    · intro _
      by_contra hn
      rw [Dict.get?_eq_none.2 hn] at h
      cases h

/-- C84: the file can be read if and only if its types consist of lists, restrictions and unions,
and the two special types are there. -/
theorem types_read_iff (root : XsNode) : (∃ r, parseNxTypes (some root) = .ok r) ↔
    (∀ n, TopNode root n → NxReadable n) ∧ (∃ n, TopNode root n ∧ HasName n s%"anyUnitsAttr") ∧
      ∃ n, TopNode root n ∧ HasName n s%"primitiveType" := by
  have top : ∀ n, n ∈ topNodes root.kids ↔ TopNode root n := fun n => mem_topNodes
  have h1 := readNxTypes_ok_iff root.kids []
  simp only [parseNxTypes]
  generalize hr : readNxTypes root.kids [] = res at h1 ⊢
  cases res with
  | error e =>
    have h2 : ¬ ∀ n ∈ topNodes root.kids, NxReadable n := by
      rw [← h1]; rintro ⟨_, h⟩; cases h
    constructor
    · rintro ⟨_, h⟩; cases h
    · rintro ⟨h, _⟩
      exact absurd (fun n hn => h n ((top n).1 hn)) h2
  | ok db =>
    have h2 : ∀ n, TopNode root n → NxReadable n := fun n hn => h1.1 ⟨db, rfl⟩ n ((top n).2 hn)
    have hk := readNxTypes_keys hr
    have hempty : ∀ k : Str, Dict.has ([] : Dict Str NxType) k = false := fun k => rfl
    simp only [hempty, Bool.false_eq_true, or_false, top] at hk
    rw [← hk, ← hk]
    simp only [bind, Except.bind]
    cases hu : Dict.get? db s%"anyUnitsAttr" with
    | none =>
      constructor
      · rintro ⟨_, h⟩; cases h
      · rintro ⟨_, h, _⟩
        rw [has_get?, hu] at h
        obtain ⟨_, h⟩ := h
        cases h
    | some u =>
      have hp : Dict.has (Dict.erase db s%"anyUnitsAttr") s%"primitiveType" = true ↔
          Dict.has db s%"primitiveType" = true := by
        rw [has_get?, has_get?, get?_erase, if_neg (by decide)]
      dsimp only
      rw [← hp]
      constructor
      · rintro ⟨r, h⟩
        refine ⟨h2, has_get?.2 ⟨u, hu⟩, ?_⟩
        by_contra hn
        rw [if_neg hn] at h
        cases h
      · rintro ⟨_, _, h⟩
        rw [if_pos h]
        exact ⟨_, rfl⟩

theorem parseNxTypes_ok {root : XsNode} {db : Dict Str NxType} {units : List Str}
    (h : parseNxTypes (some root) = .ok (db, units)) :
    ∃ d u, readNxTypes root.kids [] = .ok d ∧ Dict.get? d s%"anyUnitsAttr" = some u ∧
      db = Dict.erase (Dict.erase d s%"anyUnitsAttr") s%"primitiveType" ∧
      units = u.values.getD [] := by
  simp only [parseNxTypes] at h
  cases hr : readNxTypes root.kids [] with
  | error e => rw [hr] at h; cases h
  | ok d =>
    rw [hr] at h
    simp only [bind, Except.bind] at h
    cases hu : Dict.get? d s%"anyUnitsAttr" with
    | none => rw [hu] at h; cases h
    | some u =>
      rw [hu] at h
      dsimp only at h
      split at h
      · injection h with h
        injection h with h1 h2
        exact ⟨d, u, rfl, hu, h1.symm, h2.symm⟩
      · cases h

theorem filter_decomp {α : Type} {p : α → Bool} {c : α} : ∀ {l : List α}, l.filter p = [c] →
    ∃ a b, l = a ++ c :: b ∧ (∀ x ∈ a, p x = false) ∧ ∀ x ∈ b, p x = false
  | [], h => by cases h
  | x :: l, h => by
    rw [List.filter_cons] at h
    split at h
    · injection h with h1 h2
      subst h1
      refine ⟨[], l, rfl, by simp, ?_⟩
      intro y hy
      by_contra hn
      have : y ∈ l.filter p := List.mem_filter.2 ⟨hy, by simpa using hn⟩
      rw [h2] at this
      cases this
    · rename_i hx
      obtain ⟨a, b, h1, h2, h3⟩ := filter_decomp h
      refine ⟨x :: a, b, by rw [h1]; rfl, ?_, h3⟩
      intro y hy
      rcases List.mem_cons.1 hy with rfl | hy
      · simpa using hx
      · exact h2 y hy

theorem foldlM_skip {l : List XsNode} {o : NxType} (h : ∀ x ∈ l, isTop x = false) :
    l.foldlM nxTypeItem o = .ok o := by
  induction l with
  | nil => rfl
  | cons x l ih =>
    have hx := h x List.mem_cons_self
    have : nxTypeItem o x = .ok o := by
      cases x with
      | comment => rfl
      | elem xs t ln a ks =>
        have hx : (XsNode.elem xs t ln a ks).isXs s%"annotation" = true := by
          simpa [isTop] using hx
        rw [nxTypeItem, if_pos hx]
    rw [List.foldlM_cons, this]
    exact ih fun y hy => h y (List.mem_cons_of_mem _ hy)

theorem readNxType_consists {n c : XsNode} (h : Consists n c) :
    readNxType n = nxTypeItem {} c := by
  obtain ⟨a, b, h1, h2, h3⟩ := filter_decomp h
  unfold readNxType
  rw [h1, List.foldlM_append, foldlM_skip h2]
  simp only [bind, Except.bind, List.foldlM_cons]
  cases nxTypeItem {} c with
  | error e => rfl
  | ok o => exact foldlM_skip h3

theorem mapM_needAttr {k : Str} : ∀ {l : List XsNode} {vs : List Str},
    l.mapM (needAttr · k) = .ok vs → vs = l.filterMap fun e => Dict.get? e.attrib k
  | [], vs, h => by
    rw [List.mapM_nil] at h
    injection h with h
    exact h.symm
  | e :: l, vs, h => by
    rw [List.mapM_cons] at h
    cases h1 : needAttr e k with
    | error x => rw [h1] at h; cases h
    | ok v =>
      rw [h1] at h
      cases h2 : l.mapM (needAttr · k) with
      | error x => rw [h2] at h; cases h
      | ok vs' =>
        rw [h2] at h
        injection h with h
        rw [← h, List.filterMap_cons, needAttr_ok.1 h1, mapM_needAttr h2]

theorem readNxType_describes {n : XsNode} {o : NxType} (h : readNxType n = .ok o) :
    NxDescribes n o := by
  have elem : ∀ {c : XsNode} {tag : Str}, c.isXs tag = true → c ≠ .comment := by
    rintro c tag h rfl; cases h
  refine ⟨?_, ?_, ?_⟩
  · intro c i hc hx hi
    rw [readNxType_consists hc] at h
    cases c with
    | comment => cases hx
    | elem xs t l a ks =>
      rw [nxTypeItem, if_neg (fun h' => absurd (isXs_tag hx h') (by decide)), if_pos hx,
        needAttr_ok.2 hi] at h
      injection h with h
      exact h.symm
  · intro c i hc hx hi
    rw [readNxType_consists hc] at h
    cases c with
    | comment => cases hx
    | elem xs t l a ks =>
      rw [nxTypeItem, if_neg (fun h' => absurd (isXs_tag hx h') (by decide)),
        if_neg (fun h' => absurd (isXs_tag hx h') (by decide)),
        if_neg (fun h' => absurd (isXs_tag hx h') (by decide)), if_pos hx,
        needAttr_ok.2 hi] at h
      injection h with h
      exact h.symm
  · intro c i hc hx hi
    rw [readNxType_consists hc] at h
    cases c with
    | comment => cases hx
    | elem xs t l a ks =>
      rw [nxTypeItem, if_neg (fun h' => absurd (isXs_tag hx h') (by decide)),
        if_neg (fun h' => absurd (isXs_tag hx h') (by decide)), if_pos hx,
        needAttr_ok.2 hi] at h
      generalize XsNode.elem xs t l a ks = c at h
      cases hm : (c.select s%"enumeration").mapM (needAttr · s%"value") with
      | error e => simp only [bind, Except.bind, hm] at h; cases h
      | ok vs =>
        simp only [bind, Except.bind, hm] at h
        injection h with h
        rw [← h, mapM_needAttr hm]

/-- C84: the types that are known are all declared types except the two special ones, and what is
known of a type is what its (last) declaration says. -/
theorem types_known {root : XsNode} {db : Dict Str NxType} {units : List Str}
    (h : parseNxTypes (some root) = .ok (db, units)) (k : Str) :
    ((∃ o, Dict.get? db k = some o) ↔ (∃ n, TopNode root n ∧ HasName n k) ∧
      k ≠ s%"anyUnitsAttr" ∧ k ≠ s%"primitiveType") ∧
    ∀ o, Dict.get? db k = some o → ∃ n, TopNode root n ∧ HasName n k ∧ NxDescribes n o := by
  obtain ⟨d, u, h1, h2, h3, h4⟩ := parseNxTypes_ok h
  have hget : Dict.get? db k = if k = s%"primitiveType" then none else
      if k = s%"anyUnitsAttr" then none else Dict.get? d k := by
    rw [h3, get?_erase, get?_erase]
  constructor
  · rw [hget]
    have hk := readNxTypes_keys h1 k
    rw [has_get?] at hk
    constructor
    · rintro ⟨o, ho⟩
      split at ho
      · cases ho
      · split at ho
        · cases ho
        · rename_i h5 h6
          rcases hk.1 ⟨o, ho⟩ with ⟨n, hn, hx⟩ | h
          · exact ⟨⟨n, mem_topNodes.1 hn, hx⟩, h6, h5⟩
          · cases h
    · rintro ⟨⟨n, hn, hx⟩, h5, h6⟩
      rw [if_neg h6, if_neg h5]
      exact hk.2 (.inl ⟨n, mem_topNodes.2 hn, hx⟩)
  · intro o ho
    rw [hget] at ho
    split at ho
    · cases ho
    · split at ho
      · cases ho
      · rcases (readNxTypes_get h1 k o).1 ho with ⟨b, n, a, h5, h6, h7, _⟩ | ⟨h5, _⟩
        · refine ⟨n, mem_topNodes.1 ?_, h6, readNxType_describes h7⟩
          rw [h5]
          simp
        · cases h5

/-- C84: if the units are written as one enumeration, these are known. -/
theorem units_listed_partial {root n c : XsNode} {db : Dict Str NxType} {units : List Str}
    (h : parseNxTypes (some root) = .ok (db, units)) (hn : TopNode root n)
    (hk : HasName n s%"anyUnitsAttr")
    (hu : ∀ m, TopNode root m → HasName m s%"anyUnitsAttr" → m = n)
    (hc : Consists n c) (hr : c.isXs s%"restriction" = true) (v : Str) :
    v ∈ units ↔ ∃ e ∈ c.select s%"enumeration", Dict.get? e.attrib s%"value" = some v := by
  obtain ⟨d, u, h1, h2, h3, h4⟩ := parseNxTypes_ok h
  rcases (readNxTypes_get h1 _ u).1 h2 with ⟨b, m, a, h5, h6, h7, _⟩ | ⟨h5, _⟩
  · have hm : TopNode root m := mem_topNodes.1 (by rw [h5]; simp)
    obtain rfl := hu m hm h6
    have hb : HasAttr c s%"base" := by
      have := ((readNxType_ok_iff m).1 ⟨u, h7⟩) c
        ((List.mem_filter.1 (hc ▸ List.mem_singleton_self c)).1)
      rcases this with rfl | h | ⟨h, _⟩ | ⟨_, h, _⟩ | ⟨h, _⟩
      · cases hr
      · exact absurd (isXs_tag hr h) (by decide)
      · exact absurd (isXs_tag hr h) (by decide)
      · exact h
      · exact absurd (isXs_tag hr h) (by decide)
    obtain ⟨b, hb⟩ := hb
    have := (readNxType_describes h7).restriction c b hc hr hb
    rw [h4, this]
    simp [List.mem_filterMap]
  · cases h5

/-- C84 is false: if the units are written as a union, as in the file sets `v3.3` and `v2018.5`,
none is known. -/
theorem union_units_lost {root n c : XsNode} {db : Dict Str NxType} {units : List Str}
    (h : parseNxTypes (some root) = .ok (db, units)) (hn : TopNode root n)
    (hk : HasName n s%"anyUnitsAttr")
    (hu : ∀ m, TopNode root m → HasName m s%"anyUnitsAttr" → m = n)
    (hc : Consists n c) (hr : c.isXs s%"union" = true) : units = [] := by
  obtain ⟨d, u, h1, h2, h3, h4⟩ := parseNxTypes_ok h
  rcases (readNxTypes_get h1 _ u).1 h2 with ⟨b, m, a, h5, h6, h7, _⟩ | ⟨h5, _⟩
  · have hm : TopNode root m := mem_topNodes.1 (by rw [h5]; simp)
    obtain rfl := hu m hm h6
    have hb : HasAttr c s%"memberTypes" := by
      have := ((readNxType_ok_iff m).1 ⟨u, h7⟩) c
        ((List.mem_filter.1 (hc ▸ List.mem_singleton_self c)).1)
      rcases this with rfl | h | ⟨h, _⟩ | ⟨h, _⟩ | ⟨_, h⟩
      · cases hr
      · exact absurd (isXs_tag hr h) (by decide)
      · exact absurd (isXs_tag hr h) (by decide)
      · exact absurd (isXs_tag hr h) (by decide)
      · exact h
    obtain ⟨b, hb⟩ := hb
    rw [h4, (readNxType_describes h7).union c b hc hr hb]
    rfl
  · cases h5

/-! ## examples -/

/-- A part of the shipped `nxdlTypes.xsd` of the set `a4fd52d`. -/
def newTypesXsd : XsNode :=
  .elem true s%"schema" 1 [] [
    .comment,
    .elem true s%"simpleType" 35 [(s%"name", s%"anyUnitsAttr")] [
      .elem true s%"annotation" 36 [] [],
      .elem true s%"restriction" 45 [(s%"base", s%"xs:string")] [
        .elem true s%"enumeration" 46 [(s%"value", s%"NX_ANGLE")] [],
        .elem true s%"enumeration" 47 [(s%"value", s%"NX_ANY")] []]],
    .elem true s%"simpleType" 95 [(s%"name", s%"primitiveType")] [
      .elem true s%"union" 96 [(s%"memberTypes", s%"nxdl:NX_CHAR nxdl:NX_INT")] []],
    .elem true s%"simpleType" 166 [(s%"name", s%"NX_BOOLEAN")] [
      .elem true s%"restriction" 170 [(s%"base", s%"xs:boolean")] []]]

example : (parseNxTypes (some newTypesXsd)).toOption =
    some ([(s%"NX_BOOLEAN", ⟨some s%"boolean", none, some []⟩)], [s%"NX_ANGLE", s%"NX_ANY"]) := by
  decide

/-- A file written as in the sets `v3.3` and `v2018.5`, read without an error and without units. -/
theorem shipped_units_lost : (parseNxTypes (some nxTypesXsd)).toOption.map Prod.snd = some [] := by
  decide

end Punx
