import Verif.Props.H5TreeLinks

/-!
# C41: previews of arrays; examples for C38 to C41
-/

namespace Punx
open Spec

theorem nd_items {α : Type} (m n : Nat) (item : Nat → α) (dots : α) (hm : 2 < m) :
    (List.range (decideNumShown m n)).map item ++
      (if decideNumShown m n < n then [dots, item (n - 1)] else []) =
    (shownEntries m n).map (fun o => match o with
      | some i => item i
      | none => dots) := by
  unfold shownEntries decideNumShown
  by_cases h : n ≤ m
  · simp [h, Nat.not_lt.2 h]
  · have h' : n > m := by omega
    have h2 : m - 2 < n := by omega
    simp [h, h', h2]

/-- One dimension: the entries to be shown, in brackets. -/
theorem preview_1 (m n : Nat) (cell : List Nat → Str) (indent : Str) (pre : List Nat)
    (hm : 2 < m) :
    renderNd m cell indent pre [n] = '[' :: join s%", " ((shownEntries m n).map (fun o =>
      match o with
      | some i => cell (pre ++ [i])
      | none => s%"'...'")) ++ s%"]" := by
  rw [renderNd]
  simp only [nd_items m n _ _ hm, List.length_nil, Nat.zero_add, if_true]

/-- Two and three dimensions: the entries to be shown, each one a preview, on lines of their
own. -/
theorem preview_2_3 (m n : Nat) (cell : List Nat → Str) (indent : Str) (pre rest : List Nat)
    (hm : 2 < m) (hr : rest.length = 1 ∨ rest.length = 2) :
    renderNd m cell indent pre (n :: rest) = s%"[\n" ++ indent ++ s%"  " ++
      join ('\n' :: indent ++ s%"  ") ((shownEntries m n).map (fun o =>
        match o with
        | some i => renderNd m cell (indent ++ s%"    ") (pre ++ [i]) rest
        | none => s%"...")) ++ '\n' :: indent ++ s%"]" := by
  have h0 : rest.length ≠ 0 := by omega
  have h1 : rest.length + 1 < 4 := by omega
  rw [renderNd]
  simp only [nd_items m n _ _ hm, Nat.add_eq_right, h0, if_false, h1, if_true]

/-- More dimensions: only the rank of the entries is shown. -/
theorem preview_4 (m n : Nat) (cell : List Nat → Str) (indent : Str) (pre rest : List Nat)
    (hm : 2 < m) (hr : 2 < rest.length) :
    renderNd m cell indent pre (n :: rest) = s%"[\n" ++ indent ++ s%"  " ++
      join ('\n' :: indent ++ s%"  ") ((shownEntries m n).map (fun o =>
        match o with
        | some _ => s%"rank=" ++ natStr rest.length
        | none => s%"...")) ++ '\n' :: indent ++ s%"]" := by
  have h0 : rest.length ≠ 0 := by omega
  have h1 : ¬ rest.length + 1 < 4 := by omega
  rw [renderNd]
  simp only [nd_items m n _ _ hm, Nat.add_eq_right, h0, if_false, h1, Nat.add_sub_cancel]

/-- At most `m` entries are shown, all of them if there are no more than `m`. -/
theorem shownEntries_length (m n : Nat) (hm : 2 < m) : (shownEntries m n).length = min m n := by
  unfold shownEntries
  split
  · simp; omega
  · simp; omega

/-- The entries shown are entries of the array, without repetition. -/
theorem shownEntries_valid (m n : Nat) (hm : 2 < m) :
    (∀ i, some i ∈ shownEntries m n → i < n) ∧ (shownEntries m n).Nodup := by
  unfold shownEntries
  split
  · refine ⟨by simp, ?_⟩
    exact (List.nodup_range).map (fun _ _ h => by injection h)
  · refine ⟨?_, ?_⟩
    · intro i hi
      simp at hi
      omega
    · rw [List.nodup_append]
      refine ⟨(List.nodup_range).map (fun _ _ h => by injection h), by simp, ?_⟩
      intro a ha b hb
      simp at ha hb
      obtain ⟨i, hi, rfl⟩ := ha
      rcases hb with rfl | rfl
      · simp
      · simp; omega

/-- The line of a dataset of numbers in one dimension. -/
theorem array_line (c : TreeCfg) (di : DataInfo) (name indent : Str) (n : Nat)
    (hk : di.kind = .other) (hs : di.shape = some [n]) (hn : n ≠ 1) (hm : 2 < c.shown) :
    ∃ ty, renderDsType c di = .ok ty ∧ renderData c di name indent = .ok [⟨.header,
      indent ++ name ++ ':' :: ty ++ ('[' :: natStr n ++ s%"]") ++ s%" = " ++
        ('[' :: join s%", " ((shownEntries c.shown.toNat n).map (fun o =>
          match o with
          | some i => di.cell [i]
          | none => s%"'...'")) ++ s%"]")⟩] := by
  have hm' : 2 < c.shown.toNat := by omega
  have hty : ∃ ty, renderDsType c di = .ok ty := by
    unfold renderDsType; rw [hk]; exact ⟨_, rfl⟩
  obtain ⟨ty, hty⟩ := hty
  refine ⟨ty, hty, ?_⟩
  have hsh : renderDsShape di = .ok ('[' :: natStr n ++ s%"]") := by
    unfold renderDsShape
    rw [hs]
    split
    · rename_i h; cases h
    · rename_i h; injection h with h; injection h with h; exact absurd h hn
    · rename_i h; injection h with h; subst h; rfl
  unfold renderData
  simp only [hty, hsh, hk, hs, bind, Except.bind]
  split
  · rename_i h; cases h
  · rename_i h; cases h
  · rename_i h; injection h with h; injection h with h; exact absurd h hn
  · rename_i h; cases h
  · rename_i sh h1 h2
    injection h2 with h2
    subst h2
    simp only [gt_iff_lt, hm, if_true, List.length_singleton, Nat.lt_succ_self,
      preview_1 _ _ _ _ _ hm']
    rfl

/-- The lines of a dataset of numbers in more dimensions. -/
theorem array_lines (c : TreeCfg) (di : DataInfo) (name indent : Str) (n k : Nat) (rest : List Nat)
    (hk : di.kind = .other) (hs : di.shape = some (n :: k :: rest)) (hm : 2 < c.shown) :
    ∃ ty sh, renderDsType c di = .ok ty ∧ renderDsShape di = .ok sh ∧
      renderData c di name indent = .ok [
        ⟨.header, indent ++ name ++ ':' :: ty ++ sh ++ s%" = __array"⟩,
        ⟨.array, indent ++ s%"  __array = " ++
          renderNd c.shown.toNat di.cell (indent ++ s%"    ") [] (n :: k :: rest)⟩] := by
  have hty : ∃ ty, renderDsType c di = .ok ty := by
    unfold renderDsType; rw [hk]; exact ⟨_, rfl⟩
  obtain ⟨ty, hty⟩ := hty
  have hsh : ∃ sh, renderDsShape di = .ok sh := by
    unfold renderDsShape
    rw [hs]
    split <;> first | exact ⟨_, rfl⟩ | (rename_i h; cases h)
  obtain ⟨sh, hsh⟩ := hsh
  refine ⟨ty, sh, hty, hsh, ?_⟩
  unfold renderData
  simp only [hty, hsh, hk, hs, bind, Except.bind, gt_iff_lt, hm, if_true, List.length_cons]
  rw [if_neg (by omega)]

/-- A limit of two or less: nothing is shown. -/
theorem array_hidden (c : TreeCfg) (di : DataInfo) (name indent : Str) (shape : List Nat)
    (hk : di.kind = .other) (hs : di.shape = some shape) (hn : shape ≠ [1]) (hm : c.shown ≤ 2) :
    ∃ ty sh, renderDsType c di = .ok ty ∧ renderDsShape di = .ok sh ∧
      renderData c di name indent = .ok [
        ⟨.header, indent ++ name ++ ':' :: ty ++ sh ++ s%" = [ ... ]"⟩] := by
  have hty : ∃ ty, renderDsType c di = .ok ty := by
    unfold renderDsType; rw [hk]; exact ⟨_, rfl⟩
  obtain ⟨ty, hty⟩ := hty
  have hsh : ∃ sh, renderDsShape di = .ok sh := by
    unfold renderDsShape
    rw [hs]
    split
    · rename_i h; cases h
    · exact ⟨_, rfl⟩
    · exact ⟨_, rfl⟩
  obtain ⟨sh, hsh⟩ := hsh
  refine ⟨ty, sh, hty, hsh, ?_⟩
  unfold renderData
  simp only [hty, hsh, hk, hs, bind, Except.bind]
  split
  · omega
  · rfl

/-! ## values of scalars -/

/-- The value of a scalar dataset of numbers is not shown: the line is the same for all
values. -/
theorem scalar_not_shown (c : TreeCfg) (di : DataInfo) (name indent : Str)
    (hk : di.kind = .other) (hs : di.shape = some []) (hm : 2 < c.shown) :
    ∃ ty, renderDsType c di = .ok ty ∧ renderData c di name indent =
      .ok [⟨.header, indent ++ name ++ ':' :: ty ++ s%"[]" ++ s%" = "⟩] := by
  have hty : ∃ ty, renderDsType c di = .ok ty := by
    unfold renderDsType; rw [hk]; exact ⟨_, rfl⟩
  obtain ⟨ty, hty⟩ := hty
  refine ⟨ty, hty, ?_⟩
  have hsh : renderDsShape di = .ok s%"[]" := by
    unfold renderDsShape; rw [hs]; rfl
  unfold renderData
  simp only [hty, hsh, hk, hs, bind, Except.bind, gt_iff_lt, hm, if_true]
  simp

/-- The value of a dataset with one number is shown. -/
theorem single_value_shown_partial (c : TreeCfg) (di : DataInfo) (name indent : Str)
    (hk : di.kind = .other) (hs : di.shape = some [1]) :
    ∃ ty, renderDsType c di = .ok ty ∧ renderData c di name indent =
      .ok [⟨.header, indent ++ name ++ ':' :: ty ++ s%" = " ++ di.first⟩] := by
  have hty : ∃ ty, renderDsType c di = .ok ty := by
    unfold renderDsType; rw [hk]; exact ⟨_, rfl⟩
  obtain ⟨ty, hty⟩ := hty
  refine ⟨ty, hty, ?_⟩
  have hsh : renderDsShape di = .ok [] := by
    unfold renderDsShape; rw [hs]; rfl
  unfold renderData
  simp only [hty, hsh, hk, hs, bind, Except.bind, List.append_nil]

/-! ## examples -/

/-- A file with an entry group that has a dataset, a soft link, a missing external link and a
linked dataset. -/
def treeFile : H5File where
  attrs := [(s%"creator", .str s%"me")]
  kids :=
    .cons s%"entry" .hard (.group s%"/entry" [(s%"NX_class", .str s%"NXentry")]
      (.cons s%"x" .hard (.dataset s%"/entry/x" [(s%"units", .str s%"mm")]
        ⟨.none, .other, s%"int64", some [7], [], [], fun i => natStr (i.headD 0), s%"0"⟩)
      (.cons s%"link" .hard (.dataset s%"/entry/link" [(s%"target", .str s%"/entry/x")]
        (.ofVal (.int 1)))
      (.broken s%"soft" (.soft s%"/nowhere")
      (.broken s%"ext" (.external s%"other.h5" s%"/data" false) .nil)))))
    (.cons s%"a" .hard (.dataset s%"/a" [] (.ofVal (.int 5))) .nil)

def treeEnv : Env := { sampleEnv with dec := fun b => if b = [255] then none else asciiDecode b }

example : renderFile ⟨treeEnv, true, true, 5⟩ s%"f.h5" treeFile = .ok [
    ⟨.header, s%"f.h5 : NeXus data file"⟩,
    ⟨.attr, s%"  @creator = \"me\""⟩,
    ⟨.header, s%"  a:NX_INT64[] = "⟩,
    ⟨.header, s%"  entry:NXentry"⟩,
    ⟨.attr, s%"    @NX_class = \"NXentry\""⟩,
    ⟨.header, s%"    ext: missing external file"⟩,
    ⟨.attr, s%"      @file = \"other.h5\""⟩,
    ⟨.attr, s%"      @path = \"/data\""⟩,
    ⟨.header, s%"    link --> /entry/x"⟩,
    ⟨.header, s%"    soft: --> /nowhere"⟩,
    ⟨.header, s%"    x:NX_INT64[7] = [0, 1, 2, '...', 6]"⟩,
    ⟨.attr, s%"      @units = \"mm\""⟩] := by rfl

example : ∃ ls, renderFile ⟨treeEnv, false, true, 5⟩ s%"f.h5" treeFile = .ok ls ∧
    (ls.filter (fun l => l.tag = .attr)).length = 5 := ⟨_, rfl, rfl⟩

/-- An undecodable attribute makes the report fail, with or without the links. -/
example : ∃ f : H5File, pruneFile f ≠ f ∧
    renderFile ⟨treeEnv, false, true, 5⟩ s%"f.h5" f = .error .unicodeDecodeError ∧
    renderFile ⟨treeEnv, false, true, 5⟩ s%"f.h5" (pruneFile f) = .error .unicodeDecodeError :=
  ⟨⟨[(s%"x", .bytes [255])], .broken s%"l" (.soft s%"/q") .nil⟩,
    (by intro h; injection h with _ h; cases h), by rfl, by rfl⟩

example : renderNd 5 (fun i => natStr (i.headD 0 * 10 + i.getLastD 0)) [] [] [2, 6] =
    s%"[\n  [0, 1, 2, '...', 5]\n  [10, 11, 12, '...', 15]\n]" := by rfl

end Punx
