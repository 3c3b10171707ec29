import Verif.Model.Chan
import Mathlib.Data.List.Basic

/-! The producer/consumer machine: safety, progress, termination for every schedule. -/

namespace StlDice
variable {S I O : Type}

/-- What the producer sends, in order, from a local state. -/
def Producer.rest (P : Producer S I O) : S → List I → List O
  | s, [] => (P.finish s).toList
  | s, i :: is => (P.step s i).2.toList ++ P.rest (P.step s i).1 is

/-- What is still to be sent in a machine state. -/
def PC.future (P : Producer S I O) (c : PC S I O) : List O :=
  match c.phase with
  | .looping => P.rest c.loc c.todo
  | _ => []

/-- The machine invariant: received ++ buffered ++ future is the producer's whole output. -/
def PC.Inv (P : Producer S I O) (cap : Nat) (all : List O) (c : PC S I O) : Prop :=
  c.got ++ c.buf ++ c.future P = all ∧ c.buf.length ≤ cap ∧
    (c.done = true → c.buf = [] ∧ c.phase = .closed)

theorem PCStep.inv {P : Producer S I O} {cap : Nat} {all : List O} {c c' : PC S I O}
    (h : c.Inv P cap all) (st : PCStep P cap c c') : c'.Inv P cap all := by
  obtain ⟨h1, h2, h3⟩ := h
  cases st with
  | work hp hd hs =>
    refine ⟨?_, h2, ?_⟩
    · simp only [PC.future, hp, hd, Producer.rest, hs, Option.toList_none, List.nil_append] at *
      exact h1
    · intro hdone; have := (h3 hdone).2; rw [hp] at this; cases this
  | workSend hp hd hs hb =>
    refine ⟨?_, by simp; omega, ?_⟩
    · simp only [PC.future, hp, hd, Producer.rest, hs, Option.toList_some] at *
      rw [← h1]; simp
    · intro hdone; have := (h3 hdone).2; rw [hp] at this; cases this
  | finish hp hd hs =>
    refine ⟨?_, h2, ?_⟩
    · simp only [PC.future, hp, hd, Producer.rest, hs, Option.toList_none] at *
      exact h1
    · intro hdone; have := (h3 hdone).2; rw [hp] at this; cases this
  | finishSend hp hd hs hb =>
    refine ⟨?_, by simp; omega, ?_⟩
    · simp only [PC.future, hp, hd, Producer.rest, hs, Option.toList_some] at *
      rw [← h1]; simp
    · intro hdone; have := (h3 hdone).2; rw [hp] at this; cases this
  | close hp =>
    refine ⟨?_, h2, ?_⟩
    · simp only [PC.future, hp] at *; exact h1
    · intro hdone; have := (h3 hdone).2; rw [hp] at this; cases this
  | recv hd hb =>
    refine ⟨?_, ?_, ?_⟩
    · simp only [PC.future, hb] at *; rw [← h1]; simp
    · rw [hb] at h2; simp at h2 ⊢; omega
    · simp only; intro hdone; rw [hd] at hdone; cases hdone
  | recvEnd hd hb hp =>
    refine ⟨?_, h2, fun _ => ⟨hb, hp⟩⟩
    simp only [PC.future] at *; exact h1

theorem PCReach.inv {P : Producer S I O} {cap : Nat} {s : S} {is : List I} {c : PC S I O}
    (h : PCReach P cap (PC.init s is) c) : c.Inv P cap (P.rest s is) := by
  generalize hi : PC.init s is = c0 at h
  induction h with
  | refl =>
    subst hi
    exact ⟨rfl, Nat.zero_le _, by simp [PC.init]⟩
  | tail h st ih => exact PCStep.inv ih st

/-- Steps left: a measure that every step decreases. -/
def PC.measure (c : PC S I O) : Nat :=
  3 * c.todo.length + (match c.phase with | .looping => 4 | .closing => 1 | .closed => 0) +
    c.buf.length + (if c.done then 0 else 1)

theorem PCStep.decreases {P : Producer S I O} {cap : Nat} {c c' : PC S I O}
    (st : PCStep P cap c c') : c'.measure < c.measure := by
  cases st with
  | work hp hd hs => simp [PC.measure, hd]
  | workSend hp hd hs hb => simp only [PC.measure, hd, hp, List.length_cons, List.length_append, List.length_nil]; omega
  | finish hp hd hs => simp [PC.measure, hd, hp]
  | finishSend hp hd hs hb => simp only [PC.measure, hd, hp, List.length_append, List.length_cons, List.length_nil]; omega
  | close hp => simp [PC.measure, hp]
  | recv hd hb => simp [PC.measure, hb]
  | recvEnd hd hb hp => simp [PC.measure, hd, hb, hp]

/-- Never stuck before the consumer is done and the channel closed. -/
theorem PC.progress {P : Producer S I O} {cap : Nat} (hcap : 0 < cap) {c : PC S I O}
    (hnd : c.done = false) : ∃ c', PCStep P cap c c' := by
  by_cases hb : c.buf = []
  · cases hp : c.phase with
    | looping =>
      cases ht : c.todo with
      | nil =>
        cases hs : P.finish c.loc with
        | none => exact ⟨_, .finish hp ht hs⟩
        | some o => exact ⟨_, .finishSend hp ht hs (by simp [hb, hcap])⟩
      | cons i is =>
        rcases hs : P.step c.loc i with ⟨s', o⟩
        cases o with
        | none => exact ⟨_, .work hp ht hs⟩
        | some o => exact ⟨_, .workSend hp ht hs (by simp [hb, hcap])⟩
    | closing => exact ⟨_, .close hp⟩
    | closed => exact ⟨_, .recvEnd hnd hb hp⟩
  · obtain ⟨o, os, hb⟩ := List.exists_cons_of_ne_nil hb
    exact ⟨_, .recv hnd hb⟩

end StlDice
