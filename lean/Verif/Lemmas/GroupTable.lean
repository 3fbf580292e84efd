import Verif.Lemmas.Run
import Verif.Spec.DefaultPlot

/-! Tables of lists keyed by a property of the elements. -/

namespace Punx
open Spec

variable {α κ : Type} [DecidableEq κ]

/-- Append `x` to the list stored under its key. -/
def addTo (key : α → κ) (d : Dict κ (List α)) (x : α) : Dict κ (List α) :=
  Dict.set d (key x) ((Dict.get? d (key x)).getD [] ++ [x])

theorem get?_map_mk (ks : List κ) (F : κ → List α) (k : κ) :
    Dict.get? (ks.map (fun k => (k, F k))) k = if k ∈ ks then some (F k) else none := by
  induction ks with
  | nil => rfl
  | cons a ks ih =>
    rw [List.map_cons, Dict.get?]
    by_cases h : a = k
    · subst h; simp
    · rw [if_neg h, ih]
      have : ¬ k = a := fun e => h e.symm
      simp [this]

theorem set_map_mk (ks : List κ) (hn : ks.Nodup) (F : κ → List α) (k : κ) (v : List α) :
    Dict.set (ks.map (fun k => (k, F k))) k v =
      (if k ∈ ks then ks else ks ++ [k]).map (fun j => (j, if j = k then v else F j)) := by
  induction ks with
  | nil => simp [Dict.set]
  | cons a ks ih =>
    rw [List.nodup_cons] at hn
    rw [List.map_cons, Dict.set]
    by_cases h : a = k
    · subst h
      simp only [if_true, List.mem_cons, true_or, List.map_cons, List.cons.injEq, true_and]
      refine List.map_congr_left ?_
      intro j hj
      have : j ≠ a := fun e => hn.1 (e ▸ hj)
      simp [this]
    · rw [if_neg h, ih hn.2]
      have h' : ¬ k = a := fun e => h e.symm
      by_cases hk : k ∈ ks
      · simp [hk, h]
      · simp [hk, h, h']

omit [DecidableEq κ] in
theorem eraseDups_snoc [BEq κ] [LawfulBEq κ] (l : List κ) (k : κ) :
    (l ++ [k]).eraseDups = if k ∈ l then l.eraseDups else l.eraseDups ++ [k] := by
  rw [List.eraseDups_append]
  by_cases h : k ∈ l
  · simp [h, List.removeAll]
  · simp [h, List.removeAll, List.eraseDups_cons]

omit [DecidableEq κ] in
theorem eraseDups_nodup [BEq κ] [LawfulBEq κ] (l : List κ) : l.eraseDups.Nodup := by
  induction l using List.reverseRecOn with
  | nil => simp
  | append_singleton l k ih =>
    rw [eraseDups_snoc]
    split
    · exact ih
    · rename_i h
      rw [List.nodup_append]
      refine ⟨ih, by simp, ?_⟩
      intro a ha b hb
      rw [List.mem_singleton] at hb
      subst hb
      rintro rfl
      exact h (List.mem_eraseDups.1 ha)

theorem foldl_addTo [BEq κ] [LawfulBEq κ] (key : α → κ) (l : List α) :
    l.foldl (addTo key) [] =
      (l.map key).eraseDups.map (fun k => (k, l.filter (fun x => key x = k))) := by
  induction l using List.reverseRecOn with
  | nil => rfl
  | append_singleton l x ih =>
    rw [List.foldl_append, ih, List.foldl_cons, List.foldl_nil, addTo, get?_map_mk,
      set_map_mk _ (eraseDups_nodup _)]
    rw [List.map_append, List.map_cons, List.map_nil, eraseDups_snoc]
    simp only [List.mem_eraseDups]
    by_cases h : key x ∈ l.map key
    · simp only [h, if_true, Option.getD_some]
      refine List.map_congr_left ?_
      intro j hj
      by_cases hjk : j = key x
      · subst hjk; simp
      · have : ¬ key x = j := fun e => hjk e.symm
        simp [hjk, this]
    · simp only [h, if_false, Option.getD_none, List.nil_append]
      refine List.map_congr_left ?_
      intro j hj
      by_cases hjk : j = key x
      · subst hjk
        have hnil : l.filter (fun y => key y = key x) = [] := by
          rw [List.filter_eq_nil_iff]
          intro y hy e
          exact h (List.mem_map.2 ⟨y, hy, by simpa using e⟩)
        simp [hnil]
      · have : ¬ key x = j := fun e => hjk e.symm
        simp [hjk, this]

theorem classpathTable_eq (items : List Item) :
    classpathTable items = (items.map (·.classpath)).eraseDups.map
      (fun k => (k, withClasspath items k)) :=
  foldl_addTo (fun i : Item => i.classpath) items

theorem step1Items_eq (items : List Item) : step1Items items = byClasspath items := by
  rw [step1Items, classpathTable_eq, byClasspath, Dict.values, List.map_map, List.flatMap_def]
  rfl

end Punx
