import Verif.Model.Basic
import Mathlib.Data.List.Nodup

/-! Lemmas about the model of Go maps. -/

namespace StlDice.GoMap
variable {K V : Type} [DecidableEq K]

@[simp] theorem get_nil (k : K) : get ([] : GoMap K V) k = none := rfl

theorem get_cons (e : K × V) (m : GoMap K V) (k : K) :
    get (e :: m) k = if e.1 = k then some e.2 else get m k := rfl

theorem get_set (m : GoMap K V) (k k' : K) (v : V) :
    get (set m k v) k' = if k = k' then some v else get m k' := by
  induction m with
  | nil => simp [set, get]
  | cons e m ih =>
    unfold set
    by_cases h : e.1 = k
    · simp only [h, if_true, get_cons]
      by_cases hk : k = k' <;> simp [hk]
    · simp only [h, if_false, get_cons, ih]
      by_cases hk : k = k'
      · subst hk; simp [h]
      · by_cases he : e.1 = k' <;> simp [hk, he]

theorem has_set (m : GoMap K V) (k k' : K) (v : V) :
    has (set m k v) k' = (decide (k = k') || has m k') := by
  unfold has; rw [get_set]; by_cases h : k = k' <;> simp [h]

@[simp] theorem has_nil (k : K) : has ([] : GoMap K V) k = false := rfl

theorem mem_keys_iff (m : GoMap K V) (k : K) : k ∈ keys m ↔ has m k = true := by
  induction m with
  | nil => simp [keys, has]
  | cons e m ih =>
    unfold has at ih ⊢
    by_cases h : e.1 = k
    · simp [keys, get_cons, h]
    · have h' : ¬ k = e.1 := fun x => h x.symm
      simp only [keys, List.map_cons, List.mem_cons, h', false_or, get_cons, h, if_false]
      exact ih

theorem keys_set (m : GoMap K V) (k : K) (v : V) :
    keys (set m k v) = if k ∈ keys m then keys m else keys m ++ [k] := by
  induction m with
  | nil => simp [set, keys]
  | cons e m ih =>
    unfold set
    by_cases h : e.1 = k
    · simp [h, keys]
    · have h' : ¬ k = e.1 := fun x => h x.symm
      simp only [keys, h, if_false, List.map_cons, List.mem_cons, h', false_or] at ih ⊢
      rw [ih]; split <;> rename_i hh <;> simp [hh]

omit [DecidableEq K] in
theorem WF_nil : WF ([] : GoMap K V) := List.nodup_nil

theorem WF_set {m : GoMap K V} (h : WF m) (k : K) (v : V) : WF (set m k v) := by
  unfold WF at *
  rw [keys_set]
  split
  · exact h
  · rename_i hk
    rw [List.nodup_append]
    refine ⟨h, by simp, ?_⟩
    intro a ha b hb
    simp at hb; subst hb
    intro hab; subst hab; exact hk ha

theorem get_eq_some_iff_mem {m : GoMap K V} (h : WF m) (k : K) (v : V) :
    get m k = some v ↔ (k, v) ∈ m := by
  induction m with
  | nil => simp
  | cons e m ih =>
    have hm : WF m := (List.nodup_cons.mp h).2
    have hne : e.1 ∉ keys m := (List.nodup_cons.mp h).1
    rw [get_cons]
    by_cases hk : e.1 = k
    · simp only [hk, if_true, List.mem_cons]
      constructor
      · intro hv; left; cases hv; rw [← hk]
      · rintro (hv | hv)
        · rw [← hv]
        · exact absurd (List.mem_map_of_mem (f := (·.1)) hv) (by rw [← hk]; exact hne)
    · simp only [hk, if_false, List.mem_cons]
      rw [ih hm]
      constructor
      · exact Or.inr
      · rintro (hv | hv)
        · exact absurd (by rw [← hv]) hk
        · exact hv

end StlDice.GoMap
