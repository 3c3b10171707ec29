import Verif.Model.Slave
import Verif.Props.StlText
import Verif.Lemmas.Text
import Verif.Lemmas.RatText

/-! # C53: what a stldice slave keeps and gives back -/

namespace StlDice
namespace Slave

/-! ## File names -/

/-- What `%v` prints for a number (float64 or int64): not empty, no minus sign but at the beginning and
    after an `e`, and not ending in one of these two. -/
def NumberText (w : Bytes) : Prop :=
  w ≠ [] ∧ (∀ p q, w = p ++ 45 :: q → p = [] ∨ ∃ p', p = p' ++ [101]) ∧ (∀ p, w ≠ p ++ [45]) ∧ ∀ p, w ≠ p ++ [101]

theorem cut_first {w w' X X' : Bytes} (h : NumberText w) (h' : NumberText w') (e : w ++ 45 :: X = w' ++ 45 :: X') :
    w = w' ∧ X = X' := by
  have key : ∀ {w w' X X' : Bytes}, NumberText w → NumberText w' → w ++ 45 :: X = w' ++ 45 :: X' →
      w.length < w'.length → False := by
    intro w w' X X' h h' e hl
    obtain ⟨u, rfl⟩ : w <+: w' :=
      List.prefix_of_prefix_length_le (l₃ := w' ++ 45 :: X') ⟨45 :: X, e⟩ (List.prefix_append _ _) (by omega)
    rw [List.append_assoc] at e
    have e := List.append_cancel_left e
    cases u with
    | nil => simp at hl
    | cons c u =>
      rw [List.cons_append, List.cons.injEq] at e
      obtain ⟨rfl, -⟩ := e
      rcases h'.2.1 w u rfl with h0 | ⟨p', h0⟩
      · exact h.1 h0
      · exact h.2.2.2 p' h0
  have hl : w.length = w'.length := by
    rcases Nat.lt_trichotomy w.length w'.length with hl | hl | hl
    · exact (key h h' e hl).elim
    · exact hl
    · exact (key h' h e.symm hl).elim
  obtain ⟨rfl, e2⟩ := List.append_inj e hl
  rw [List.cons.injEq] at e2
  exact ⟨rfl, e2.2⟩

theorem numberText_int (i : Int) : NumberText (fmtInt i) := by
  have hd : ∀ n : Nat, ∀ c ∈ fmtNat n, c ≠ 45 ∧ c ≠ 101 := by
    intro n c hc
    have := fmtNat_digits n c hc
    constructor <;> rintro rfl <;> revert this <;> decide
  have hnat : ∀ n : Nat, NumberText (fmtNat n) := by
    intro n
    refine ⟨fmtNat_ne_nil n, ?_, ?_, ?_⟩
    · intro p q e
      exact absurd rfl (hd n 45 (by rw [e]; simp)).1
    · intro p e
      exact absurd rfl (hd n 45 (by rw [e]; simp)).1
    · intro p e
      exact absurd rfl (hd n 101 (by rw [e]; simp)).2
  cases i with
  | ofNat n => exact hnat n
  | negSucc n =>
    show NumberText (45 :: fmtNat (n + 1))
    have hn := fmtNat_ne_nil (n + 1)
    refine ⟨by simp, ?_, ?_, ?_⟩
    · intro p q e
      cases p with
      | nil => exact Or.inl rfl
      | cons c p =>
        rw [List.cons_append, List.cons.injEq] at e
        exact absurd rfl (hd (n + 1) 45 (by rw [e.2]; simp)).1
    · intro p e
      cases p with
      | nil => rw [List.nil_append, List.cons.injEq] at e; exact hn e.2
      | cons c p =>
        rw [List.cons_append, List.cons.injEq] at e
        exact absurd rfl (hd (n + 1) 45 (by rw [e.2]; simp)).1
    · intro p e
      cases p with
      | nil => rw [List.nil_append, List.cons.injEq] at e; exact hn e.2
      | cons c p =>
        rw [List.cons_append, List.cons.injEq] at e
        exact absurd rfl (hd (n + 1) 101 (by rw [e.2]; simp)).2

theorem fmtInt_injective {i j : Int} (h : fmtInt i = fmtInt j) : i = j := by
  have hneg : ∀ n : Nat, ∀ t, fmtNat n ≠ 45 :: t := by
    intro n t e
    exact absurd (fmtNat_digits n 45 (by rw [e]; simp)) (by decide)
  cases i with
  | ofNat n =>
    cases j with
    | ofNat m => rw [← fmtNat_val n, ← fmtNat_val m, show fmtNat n = fmtNat m from h]
    | negSucc m => exact absurd h (hneg n _)
  | negSucc n =>
    cases j with
    | ofNat m => exact absurd h.symm (hneg m _)
    | negSucc m =>
      have h : (45 : UInt8) :: fmtNat (n + 1) = 45 :: fmtNat (m + 1) := h
      rw [List.cons.injEq] at h
      have : n + 1 = m + 1 := by rw [← fmtNat_val (n + 1), ← fmtNat_val (m + 1), h.2]
      rw [Nat.succ_injective this]

/-- **C53.** Different regions have different files. -/
theorem filename_injective {F : Type} {fmtV : F → Bytes} (hn : ∀ x, NumberText (fmtV x)) (hi : Function.Injective fmtV)
    {r r' : VoxelRegion F} (h : filename fmtV r = filename fmtV r') : r = r' := by
  have e1 : ascii "-" = [45] := by decide
  unfold filename at h
  rw [e1] at h
  simp only [List.append_assoc, List.singleton_append, List.cons_append] at h
  have h := List.append_cancel_left h
  rw [List.cons.injEq] at h
  have h := h.2
  obtain ⟨a1, h⟩ := cut_first (hn _) (hn _) h
  obtain ⟨a2, h⟩ := cut_first (hn _) (hn _) h
  obtain ⟨a3, h⟩ := cut_first (hn _) (hn _) h
  obtain ⟨a4, h⟩ := cut_first (hn _) (hn _) h
  obtain ⟨a5, h⟩ := cut_first (hn _) (hn _) h
  obtain ⟨a6, h⟩ := cut_first (hn _) (hn _) h
  obtain ⟨a7, h⟩ := cut_first (numberText_int _) (numberText_int _) h
  obtain ⟨a8, h⟩ := cut_first (numberText_int _) (numberText_int _) h
  rw [List.nil_append, List.nil_append] at h
  have a9 := List.append_cancel_right h
  cases r
  cases r'
  simp only at a1 a2 a3 a4 a5 a6 a7 a8 a9
  rw [hi a1, hi a2, hi a3, hi a4, hi a5, hi a6, fmtInt_injective a7, fmtInt_injective a8, fmtInt_injective a9]

/-! ## Histories -/

section
variable {F : Type} [FloatText F] {env : Env F}

theorem read_whole (disk : Bytes → Option Bytes) (name : Bytes) :
    BinVOX.Read (F := F) (whole disk name) ⟨0, 0, 0, 0, 0, 0⟩ = readModel disk name := rfl

/-- The file can be read as a model. -/
def Readable (F : Type) [FloatText F] (disk : Bytes → Option Bytes) (name : Bytes) : Prop :=
  ∃ b : BinVOX F, readModel disk name = some b

omit [FloatText F] in
theorem stlFile_cons (mesh : List (Tri (BinVOX.Vec F))) : ∃ t, env.stlFile mesh = 0 :: t := by
  unfold Env.stlFile Spec.stlBinary
  rw [List.replicate_succ]
  exact ⟨_, rfl⟩

omit [FloatText F] in
theorem stlFile_head (mesh : List (Tri (BinVOX.Vec F))) : (env.stlFile mesh)[0]? = some 0 := by
  unfold Env.stlFile Spec.stlBinary
  rw [List.replicate_succ]
  rfl

/-- A model begins with the line `#binvox 1`. -/
theorem read_magic {b : Bytes} {clean : Bool} {m : BinVOX F} (h : BinVOX.Read (some ⟨b, clean⟩) ⟨0, 0, 0, 0, 0, 0⟩ = some m) :
    binvoxMagic <+: b := by
  unfold BinVOX.Read BinVOX.read at h
  dsimp only at h
  split at h
  · cases h
  · cases hh : readHeader (F := F) binvoxMagic ⟨0, 0, 0, 0, 0, 0⟩ b with
    | none => rw [hh] at h; cases h
    | some _ =>
      unfold readHeader at hh
      cases hr : readLine b with
      | none => rw [hr] at hh; cases hh
      | some lr =>
        obtain ⟨l, r⟩ := lr
        rw [hr] at hh
        dsimp only at hh
        split at hh
        · cases hh
        · rename_i hl
          have hl : l = binvoxMagic := by
            by_contra hne
            exact hl hne
          obtain ⟨-, -, hs, -⟩ := readLine_some hr
          exact ⟨r, by rw [← hl]; exact hs.symm⟩

/-- A file that begins with a zero cannot be read as a model. -/
theorem zero_unreadable {b : Bytes} (h0 : b = [] ∨ ∃ t, b = 0 :: t) (clean : Bool) :
    BinVOX.Read (F := F) (some ⟨b, clean⟩) ⟨0, 0, 0, 0, 0, 0⟩ = none := by
  cases hr : BinVOX.Read (F := F) (some ⟨b, clean⟩) ⟨0, 0, 0, 0, 0, 0⟩ with
  | none => rfl
  | some m =>
    obtain ⟨t, ht⟩ := read_magic hr
    rw [show binvoxMagic = 35 :: ascii "binvox 1\n" by decide] at ht
    rcases h0 with rfl | ⟨t', rfl⟩
    · cases ht
    · rw [List.cons_append, List.cons.injEq] at ht
      exact absurd ht.1 (by decide)

/-- The replies are as the code can make them. -/
def RepliesOK (s : State F) : Prop :=
  ∀ q r, (q, r) ∈ s.replies → r = .error ∨
    (r = .ok [] ∧ ∀ region stl, q ≠ .sub region stl)

theorem repliesOK_answer_error {s : State F} (h : RepliesOK s) (q : Request F) : RepliesOK (s.answer q .error) := by
  intro q' r hm
  rcases List.mem_cons.mp hm with e | hm
  · rw [Prod.mk.injEq] at e; exact Or.inl e.2
  · exact h q' r hm

theorem repliesOK_answer_ok {s : State F} (h : RepliesOK s) {q : Request F} (hq : ∀ region stl, q ≠ .sub region stl) :
    RepliesOK (s.answer q (.ok [])) := by
  intro q' r hm
  rcases List.mem_cons.mp hm with e | hm
  · rw [Prod.mk.injEq] at e; rw [e.1]; exact Or.inr ⟨e.2, hq⟩
  · exact h q' r hm

/-- The mesh a handler is about to save or is saving. -/
def Pending.meshOf {F : Type} : Pending F → Option (List (Tri (BinVOX.Vec F)))
  | .save mesh => some mesh
  | .saving mesh _ => some mesh
  | .reading _ => none
  | .writeNil => none

/-- Only `AddSTLMesh` saves. -/
def RunningOK (s : State F) : Prop :=
  ∀ q p mesh, (q, p) ∈ s.running → p.meshOf = some mesh →
    ∃ region stl, q = .add region stl ∧ StlText.stlToMesh env.f32 env.parseF stl = .ok mesh

/-- The handlers under way after a handler has read its model. -/
theorem handleRead_running {s : State F} {q : Request F} {inp : Option Input} {x : Request F × Pending F}
    (h : x ∈ (handleRead env s q inp).running) : x ∈ s.running ∨ x = (q, .writeNil) ∨
      ∃ mesh region stl, x = (q, .save mesh) ∧ q = .add region stl ∧ StlText.stlToMesh env.f32 env.parseF stl = .ok mesh := by
  cases q with
  | add region stl =>
    unfold handleRead at h
    dsimp only at h
    split at h
    · cases h
    · exact .inl h
    · rename_i mesh hmesh
      split at h
      · rcases List.mem_cons.mp h with e | h
        · exact .inr (.inr ⟨mesh, region, stl, e, rfl, hmesh⟩)
        · exact .inl h
      · rcases List.mem_cons.mp h with e | h
        · exact .inr (.inl e)
        · exact .inl h
  | sub region stl =>
    unfold handleRead at h
    dsimp only at h
    split at h
    · exact .inl h
    · split at h
      · cases h
      · exact .inl h
      · rcases List.mem_cons.mp h with e | h
        · exact .inr (.inl e)
        · exact .inl h
  | get region =>
    unfold handleRead at h
    dsimp only at h
    split at h <;> exact .inl h

/-- The replies after a handler has read its model. -/
theorem handleRead_replies (s : State F) (q : Request F) (inp : Option Input) :
    (handleRead env s q inp).replies = s.replies ∨ (handleRead env s q inp).replies = (q, .error) :: s.replies ∨
      ((handleRead env s q inp).replies = (q, .ok []) :: s.replies ∧ (∃ region, q = .get region) ∧
        ∃ m : BinVOX F, BinVOX.Read inp ⟨0, 0, 0, 0, 0, 0⟩ = some m) := by
  cases q with
  | add region stl =>
    unfold handleRead
    dsimp only
    split
    · exact .inl rfl
    · exact .inr (.inl rfl)
    · split <;> exact .inl rfl
  | sub region stl =>
    unfold handleRead
    dsimp only
    split
    · exact .inr (.inl rfl)
    · split
      · exact .inl rfl
      · exact .inr (.inl rfl)
      · exact .inl rfl
  | get region =>
    unfold handleRead
    dsimp only
    split
    · exact .inr (.inl rfl)
    · rename_i m hm
      exact .inr (.inr ⟨rfl, ⟨region, rfl⟩, m, hm⟩)

/-- Reading a model changes no file. -/
theorem handleRead_disk (t : State F) (q : Request F) (inp : Option Input) : (handleRead env t q inp).disk = t.disk := by
  unfold handleRead
  cases q <;> dsimp only <;> (repeat' split) <;> rfl

/-- The handlers under way after a request has arrived. -/
theorem arrive_running {s t : State F} {q : Request F} (ha : Arrive env s q t) {x : Request F × Pending F} (h : x ∈ t.running) :
    x ∈ s.running ∨ x = (q, .writeNil) ∨
      (∃ mesh region stl, x = (q, .save mesh) ∧ q = .add region stl ∧ StlText.stlToMesh env.f32 env.parseF stl = .ok mesh) ∨
      (x = (q, .reading []) ∧ ∀ r stl, q = .add r stl → ∃ mesh, StlText.stlToMesh env.f32 env.parseF stl = .ok mesh) := by
  cases ha with
  | atOnce =>
    rcases handleRead_running h with h | h | h
    · exact .inl h
    · exact .inr (.inl h)
    · exact .inr (.inr (.inl h))
  | unopened =>
    rcases handleRead_running h with h | h | h
    · exact .inl h
    · exact .inr (.inl h)
    · exact .inr (.inr (.inl h))
  | opened hb hq =>
    rcases List.mem_cons.mp h with e | h
    · exact .inr (.inr (.inr ⟨e, hq⟩))
    · exact .inl h

theorem arrive_replies {s t : State F} {q : Request F} (ha : Arrive env s q t) :
    t.replies = s.replies ∨ t.replies = (q, .error) :: s.replies ∨
      (t.replies = (q, .ok []) :: s.replies ∧ (∃ region, q = .get region) ∧ Readable F s.disk (q.file env)) := by
  cases ha with
  | atOnce =>
    rcases handleRead_replies (env := env) s q (whole s.disk (q.file env)) with h | h | ⟨h, h1, h2⟩
    · exact .inl h
    · exact .inr (.inl h)
    · exact .inr (.inr ⟨h, h1, h2⟩)
  | unopened =>
    rcases handleRead_replies (env := env) s q none with h | h | ⟨h, h1, m, h2⟩
    · exact .inl h
    · exact .inr (.inl h)
    · cases h2
  | opened hb hq => exact .inl rfl

theorem arrive_disk {s t : State F} {q : Request F} (ha : Arrive env s q t) : t.disk = s.disk := by
  cases ha with
  | atOnce => exact handleRead_disk _ _ _
  | unopened => exact handleRead_disk _ _ _
  | opened hb hq => rfl

theorem repliesOK_of {s t : State F} (h1 : RepliesOK s) {q : Request F}
    (h : t.replies = s.replies ∨ t.replies = (q, .error) :: s.replies ∨
      (t.replies = (q, .ok []) :: s.replies ∧ ∃ region, q = .get region)) : RepliesOK t := by
  rcases h with h | h | ⟨h, region, rfl⟩
  · unfold RepliesOK; rw [h]; exact h1
  · unfold RepliesOK; rw [h]; exact repliesOK_answer_error h1 q
  · unfold RepliesOK; rw [h]; exact repliesOK_answer_ok h1 (q := .get region) nofun

theorem mem_replaced {α : Type} {pre post : List α} {x y z : α} (h : z ∈ pre ++ y :: post) : z = y ∨ z ∈ pre ++ x :: post := by
  simp only [List.mem_append, List.mem_cons] at h ⊢
  tauto

theorem mem_removed {α : Type} {pre post : List α} {x z : α} (h : z ∈ pre ++ post) : z ∈ pre ++ x :: post := by
  simp only [List.mem_append, List.mem_cons] at h ⊢
  tauto

theorem reach_invariant {disk : Bytes → Option Bytes} {s : State F} (h : Reach env (start disk) s) :
    RepliesOK s ∧ RunningOK (env := env) s := by
  induction h with
  | refl => exact ⟨fun q r hm => (List.not_mem_nil hm).elim, fun q p mesh hm => (List.not_mem_nil hm).elim⟩
  | killed _ ih => exact ⟨ih.1, by intro q p mesh hm; cases hm⟩
  | @step t u _ hs ih =>
    obtain ⟨h1, h2⟩ := ih
    have hrep : ∀ {pre post : List (Request F × Pending F)} {q p p'} {t' : State F}, t.running = pre ++ (q, p) :: post →
        p'.meshOf = p.meshOf → t'.running = pre ++ (q, p') :: post → RunningOK (env := env) t' := by
      intro pre post q p p' t' hr hp ht q' p'' m hm hp''
      rw [ht] at hm
      rcases mem_replaced (x := (q, p)) hm with e | hm
      · rw [Prod.mk.injEq] at e
        obtain ⟨rfl, rfl⟩ := e
        exact h2 q' p m (by rw [hr]; simp) (by rw [← hp, hp''])
      · rw [← hr] at hm
        exact h2 q' p'' m hm hp''
    have hrem : ∀ {pre post : List (Request F × Pending F)} {x} {t' : State F}, t.running = pre ++ x :: post →
        t'.running = pre ++ post → RunningOK (env := env) t' := by
      intro pre post x t' hr ht q' p'' m hm hp''
      rw [ht] at hm
      have hm := mem_removed (x := x) hm
      rw [← hr] at hm
      exact h2 q' p'' m hm hp''
    cases hs with
    | request q _ ha =>
      refine ⟨repliesOK_of h1 (q := q) ?_, ?_⟩
      · rcases arrive_replies ha with h | h | ⟨h, h', -⟩
        · exact .inl h
        · exact .inr (.inl h)
        · exact .inr (.inr ⟨h, h'⟩)
      · intro q' p mesh hm hp
        rcases arrive_running ha hm with h | e | ⟨mesh', region, stl, e, hq, hok⟩ | ⟨e, -⟩
        · exact h2 q' p mesh h hp
        · rw [Prod.mk.injEq] at e
          rw [e.2] at hp; cases hp
        · rw [Prod.mk.injEq] at e
          obtain ⟨rfl, rfl⟩ := e
          injection hp with hp
          exact ⟨region, stl, hq, by rw [← hp]; exact hok⟩
        · rw [Prod.mk.injEq] at e
          rw [e.2] at hp; cases hp
    | @read pre post q got b n _ hr _ => exact ⟨h1, hrep (p' := .reading (got ++ (b.drop got.length).take n)) hr rfl rfl⟩
    | @readEnd pre post q got b clean _ hr _ _ =>
      have h3 : RunningOK (env := env) { t with running := pre ++ post } := hrem hr rfl
      refine ⟨repliesOK_of (s := { t with running := pre ++ post }) h1 (q := q) ?_, ?_⟩
      · rcases handleRead_replies (env := env) { t with running := pre ++ post } q (some ⟨got, clean⟩) with h | h | ⟨h, h', -⟩
        · exact .inl h
        · exact .inr (.inl h)
        · exact .inr (.inr ⟨h, h'⟩)
      · intro q' p mesh hm hp
        rcases handleRead_running hm with h | e | ⟨mesh', region, stl, e, hq, hok⟩
        · exact h3 q' p mesh h hp
        · rw [Prod.mk.injEq] at e
          rw [e.2] at hp; cases hp
        · rw [Prod.mk.injEq] at e
          obtain ⟨rfl, rfl⟩ := e
          injection hp with hp
          exact ⟨region, stl, hq, by rw [← hp]; exact hok⟩
    | @created pre post q mesh _ hr => exact ⟨h1, hrep (p' := .saving mesh 0) hr rfl rfl⟩
    | @wrote pre post q mesh pos b n _ hr _ _ _ => exact ⟨h1, hrep (p' := .saving mesh (pos + n)) hr rfl rfl⟩
    | @saved pre post q mesh _ hr =>
      refine ⟨repliesOK_answer_ok h1 ?_, hrem hr rfl⟩
      obtain ⟨region, stl, rfl, -⟩ := h2 q (.saving mesh (env.stlFile mesh).length) mesh (by rw [hr]; simp) rfl
      intro _ _ e; cases e
    | @notCreated pre post q mesh _ hr => exact ⟨repliesOK_answer_error h1 q, hrem hr rfl⟩
    | @saveFailed pre post q mesh pos _ hr => exact ⟨repliesOK_answer_error h1 q, hrem hr rfl⟩
    | wroteNil _ hr => exact ⟨h1, by intro q p mesh hm; cases hm⟩
    | @createFailed pre post q _ hr => exact ⟨repliesOK_answer_error h1 q, hrem hr rfl⟩
    | restart _ => exact ⟨h1, h2⟩

/-- **C53.** Whatever is on the disk and whatever happened before, no `SubSTLMesh` ever succeeds. -/
theorem sub_never_succeeds {disk : Bytes → Option Bytes} {s : State F} (h : Reach env (start disk) s)
    {region : VoxelRegion F} {stl : Bytes} {r : Reply} (hr : (Request.sub region stl, r) ∈ s.replies) : r = .error := by
  rcases (reach_invariant h).1 _ _ hr with e | ⟨-, e⟩
  · exact e
  · exact absurd rfl (e region stl)

/-- **C53.** Whatever is on the disk and whatever happened before, a `GetSTLMesh` that succeeds returns
    no data. -/
theorem get_returns_nothing {disk : Bytes → Option Bytes} {s : State F} (h : Reach env (start disk) s)
    {region : VoxelRegion F} {b : Bytes} (hr : (Request.get region, Reply.ok b) ∈ s.replies) : b = [] := by
  rcases (reach_invariant h).1 _ _ hr with e | ⟨e, -⟩
  · cases e
  · injection e

/-- Who reads a model to add to it has data that can be read. -/
def ReadersOK (env : Env F) (s : State F) : Prop :=
  ∀ region stl got, (Request.add region stl, Pending.reading got) ∈ s.running → ∃ mesh, StlText.stlToMesh env.f32 env.parseF stl = .ok mesh

theorem readers_reach {disk : Bytes → Option Bytes} {s : State F} (h : Reach env (start disk) s) : ReadersOK env s := by
  induction h with
  | refl => exact fun _ _ _ hm => (List.not_mem_nil hm).elim
  | killed _ _ => intro _ _ _ hm; cases hm
  | @step t u _ hs ih =>
    have hrem : ∀ {pre post : List (Request F × Pending F)} {x}, t.running = pre ++ x :: post →
        ∀ region stl got, (Request.add region stl, Pending.reading got) ∈ pre ++ post → ∃ mesh, StlText.stlToMesh env.f32 env.parseF stl = .ok mesh := by
      intro pre post x hr region stl got hm
      exact ih region stl got (by rw [hr]; exact mem_removed hm)
    intro region stl got hm
    cases hs with
    | request q _ ha =>
      rcases arrive_running ha hm with h | e | ⟨_, _, _, e, _⟩ | ⟨e, h⟩
      · exact ih region stl got h
      · simp at e
      · simp at e
      · simp only [Prod.mk.injEq] at e
        exact h region stl e.1.symm
    | @read pre post q got' b n _ hr _ =>
      rcases mem_replaced (x := (q, Pending.reading got')) hm with e | hm
      · simp only [Prod.mk.injEq] at e
        exact ih region stl got' (by rw [hr, e.1]; simp)
      · exact ih region stl got (by rw [hr]; exact hm)
    | @readEnd pre post q got' b clean _ hr _ _ =>
      rcases handleRead_running hm with h | e | ⟨_, _, _, e, _⟩
      · exact hrem hr region stl got h
      · simp at e
      · simp at e
    | @created pre post q mesh _ hr =>
      rcases mem_replaced (x := (q, Pending.save mesh)) hm with e | hm
      · simp at e
      · exact ih region stl got (by rw [hr]; exact hm)
    | @wrote pre post q mesh pos b n _ hr _ _ _ =>
      rcases mem_replaced (x := (q, Pending.saving mesh pos)) hm with e | hm
      · simp at e
      · exact ih region stl got (by rw [hr]; exact hm)
    | saved _ hr => exact hrem hr region stl got hm
    | notCreated _ hr => exact hrem hr region stl got hm
    | saveFailed _ hr => exact hrem hr region stl got hm
    | wroteNil _ hr => cases hm
    | createFailed _ hr => exact hrem hr region stl got hm
    | restart _ => exact ih region stl got hm

/-- Every byte of `b` is zero or the byte at the same place of the STL file of a mesh that some data sent for a region of
    this name stands for. -/
def Pieces (env : Env F) (name b : Bytes) : Prop :=
  ∀ (i : Nat) c, b[i]? = some c → c = 0 ∨ ∃ region stl mesh, filename env.fmtV region = name ∧
    StlText.stlToMesh env.f32 env.parseF stl = .ok mesh ∧ (env.stlFile mesh)[i]? = some c

theorem writeAt_get {b : Bytes} {pos : Nat} {c : Bytes} {i : Nat} {x : UInt8} (h : (writeAt b pos c)[i]? = some x) :
    x = 0 ∨ b[i]? = some x ∨ (pos ≤ i ∧ c[i - pos]? = some x) := by
  unfold writeAt at h
  rw [List.append_assoc, List.append_assoc] at h
  by_cases h1 : i < (b.take pos).length
  · rw [List.getElem?_append_left h1, List.getElem?_take] at h
    split at h
    · exact Or.inr (Or.inl h)
    · cases h
  rw [List.getElem?_append_right (by omega)] at h
  have hlen : (b.take pos).length = min pos b.length := List.length_take
  by_cases h2 : i - (b.take pos).length < (List.replicate (pos - b.length) (0 : UInt8)).length
  · rw [List.getElem?_append_left h2] at h
    left
    have := List.mem_of_getElem? h
    exact List.eq_of_mem_replicate this
  rw [List.getElem?_append_right (by omega), List.length_replicate] at h
  rw [List.length_replicate] at h2
  have e : i - (b.take pos).length - (pos - b.length) = i - pos := by omega
  rw [e] at h
  by_cases h3 : i - pos < c.length
  · rw [List.getElem?_append_left h3] at h
    exact Or.inr (Or.inr ⟨by omega, h⟩)
  · rw [List.getElem?_append_right (by omega), List.getElem?_drop] at h
    right; left
    rw [show i = pos + c.length + (i - pos - c.length) by omega]
    exact h

omit [FloatText F] in
theorem pieces_nil (name : Bytes) : Pieces env name [] := by
  intro i c h
  simp at h

omit [FloatText F] in
theorem pieces_write {name b : Bytes} {pos n : Nat} {region : VoxelRegion F} {stl : Bytes} {mesh : List (Tri (BinVOX.Vec F))}
    (hn : filename env.fmtV region = name) (hm : StlText.stlToMesh env.f32 env.parseF stl = .ok mesh) (h : Pieces env name b) :
    Pieces env name (writeAt b pos (((env.stlFile mesh).drop pos).take n)) := by
  intro i c hc
  rcases writeAt_get hc with h0 | h0 | ⟨hp, h0⟩
  · exact Or.inl h0
  · exact h i c h0
  · rw [List.getElem?_take] at h0
    split at h0
    · rw [List.getElem?_drop] at h0
      exact Or.inr ⟨region, stl, mesh, hn, hm, by rw [show i = pos + (i - pos) by omega]; exact h0⟩
    · cases h0

omit [FloatText F] in
theorem pieces_head {name b : Bytes} (h : Pieces env name b) : b = [] ∨ ∃ t, b = 0 :: t := by
  cases b with
  | nil => exact Or.inl rfl
  | cons c t =>
    right
    rcases h 0 c rfl with rfl | ⟨_, _, mesh, -, -, h0⟩
    · exact ⟨t, rfl⟩
    · rw [stlFile_head] at h0
      injection h0 with h0
      exact ⟨t, by rw [h0]⟩

section
attribute [local irreducible] filename Env.stlFile

/-- What is on the disk: the old files and pieces of meshes. -/
def FilesOK (env : Env F) (disk : Bytes → Option Bytes) (s : State F) : Prop :=
  (∀ name b, s.disk name = some b → disk name = some b ∨ Pieces env name b) ∧
  ∀ q mesh pos, (q, Pending.saving mesh pos) ∈ s.running → ∃ b, s.disk (q.file env) = some b ∧ Pieces env (q.file env) b

/-- What can have been read: every byte is the one at the same place of the old file, zero, or the one at the same place of
    a mesh. -/
def Torn (env : Env F) (disk : Bytes → Option Bytes) (name b : Bytes) : Prop :=
  ∀ (i : Nat) c, b[i]? = some c → (∃ old, disk name = some old ∧ old[i]? = some c) ∨ c = 0 ∨
    ∃ region stl mesh, filename env.fmtV region = name ∧
      StlText.stlToMesh env.f32 env.parseF stl = .ok mesh ∧ (env.stlFile mesh)[i]? = some c

theorem handle_saving {s : State F} {q q' : Request F} {inp : Option Input} {mesh : List (Tri (BinVOX.Vec F))} {pos : Nat}
    (h : (q', Pending.saving mesh pos) ∈ (handleRead env s q inp).running) : (q', Pending.saving mesh pos) ∈ s.running := by
  rcases handleRead_running h with h | e | ⟨_, _, _, e, _⟩
  · exact h
  · simp at e
  · simp at e

theorem arrive_saving {s t : State F} {q q' : Request F} (ha : Arrive env s q t) {mesh : List (Tri (BinVOX.Vec F))} {pos : Nat}
    (h : (q', Pending.saving mesh pos) ∈ t.running) : (q', Pending.saving mesh pos) ∈ s.running := by
  rcases arrive_running ha h with h | e | ⟨_, _, _, e, _⟩ | ⟨e, -⟩
  · exact h
  · simp at e
  · simp at e
  · simp at e

theorem setFile_self (disk : Bytes → Option Bytes) (name b : Bytes) : setFile disk name b name = some b := if_pos rfl

theorem setFile_other {disk : Bytes → Option Bytes} {name n : Bytes} (b : Bytes) (h : n ≠ name) : setFile disk name b n = disk n := if_neg h

omit [FloatText F] in
theorem files_set {disk : Bytes → Option Bytes} {t : State F} {name c : Bytes} (h : FilesOK env disk t) (hc : Pieces env name c) :
    (∀ n b, setFile t.disk name c n = some b → disk n = some b ∨ Pieces env n b) ∧
    ∀ n b, t.disk n = some b → Pieces env n b → ∃ b, setFile t.disk name c n = some b ∧ Pieces env n b := by
  constructor
  · intro n b hb
    by_cases hn : n = name
    · subst hn
      rw [setFile_self] at hb
      injection hb with hb
      exact Or.inr (hb ▸ hc)
    · rw [setFile_other _ hn] at hb
      exact h.1 n b hb
  · intro n b hb hp
    by_cases hn : n = name
    · subst hn
      exact ⟨c, setFile_self _ _ _, hc⟩
    · exact ⟨b, by rw [setFile_other _ hn]; exact hb, hp⟩

theorem files_reach {disk : Bytes → Option Bytes} {s : State F} (h : Reach env (start disk) s) : FilesOK env disk s := by
  induction h with
  | refl => exact ⟨fun name b hb => Or.inl hb, fun q mesh pos hm => (List.not_mem_nil hm).elim⟩
  | killed _ ih => exact ⟨ih.1, fun q mesh pos hm => (List.not_mem_nil hm).elim⟩
  | @step t u hreach hs ih =>
    have hrun := (reach_invariant hreach).2
    cases hs with
    | request q _ ha =>
      refine ⟨?_, ?_⟩
      · rw [arrive_disk ha]; exact ih.1
      · intro q' mesh pos hm
        rw [arrive_disk ha]
        exact ih.2 q' mesh pos (arrive_saving ha hm)
    | @read pre post q got b n _ hr _ =>
      refine ⟨ih.1, ?_⟩
      intro q' m pos hm
      rcases mem_replaced (x := (q, Pending.reading got)) hm with e | hm
      · simp at e
      · exact ih.2 q' m pos (by rw [hr]; exact hm)
    | @readEnd pre post q got b clean _ hr _ _ =>
      refine ⟨?_, ?_⟩
      · rw [handleRead_disk]; exact ih.1
      · intro q' mesh pos hm
        rw [handleRead_disk]
        exact ih.2 q' mesh pos (by rw [hr]; exact mem_removed (handle_saving hm))
    | @created pre post q mesh _ hr =>
      obtain ⟨f1, f2⟩ := files_set (name := q.file env) ih (pieces_nil _)
      refine ⟨f1, ?_⟩
      intro q' m pos hm
      rcases mem_replaced (x := (q, Pending.save mesh)) hm with e | hm
      · rw [Prod.mk.injEq] at e
        obtain ⟨rfl, -⟩ := e
        exact ⟨[], setFile_self _ _ _, pieces_nil _⟩
      · rw [← hr] at hm
        obtain ⟨b, hb, hp⟩ := ih.2 q' m pos hm
        exact f2 _ b hb hp
    | @wrote pre post q mesh pos b n _ hr hb _ hn =>
      have hmem : (q, Pending.saving mesh pos) ∈ t.running := by rw [hr]; simp
      obtain ⟨region, stl, rfl, hm⟩ := hrun q _ mesh hmem rfl
      obtain ⟨b', hb', hp⟩ := ih.2 _ _ _ hmem
      obtain rfl : b' = b := Option.some.inj (hb'.symm.trans hb)
      have hw := pieces_write (pos := pos) (n := n) (env := env) (region := region) rfl hm hp
      obtain ⟨f1, f2⟩ := files_set (name := (Request.add region stl).file env) ih hw
      refine ⟨f1, ?_⟩
      intro q' m pos' hm'
      rcases mem_replaced (x := (Request.add region stl, Pending.saving mesh pos)) hm' with e | hm'
      · rw [Prod.mk.injEq] at e
        obtain ⟨rfl, -⟩ := e
        exact ⟨_, setFile_self _ _ _, hw⟩
      · rw [← hr] at hm'
        obtain ⟨b, hb, hp⟩ := ih.2 q' m pos' hm'
        exact f2 _ b hb hp
    | @saved pre post q mesh _ hr =>
      refine ⟨ih.1, ?_⟩
      intro q' m pos hm
      exact ih.2 q' m pos (by rw [hr]; exact mem_removed hm)
    | @notCreated pre post q mesh _ hr =>
      refine ⟨ih.1, ?_⟩
      intro q' m pos hm
      exact ih.2 q' m pos (by rw [hr]; exact mem_removed hm)
    | @saveFailed pre post q mesh pos _ hr =>
      refine ⟨ih.1, ?_⟩
      intro q' m pos hm
      exact ih.2 q' m pos (by rw [hr]; exact mem_removed hm)
    | @wroteNil q _ hr =>
      exact ⟨(files_set (name := q.file env) ih (pieces_nil _)).1, fun q mesh pos hm => (List.not_mem_nil hm).elim⟩
    | @createFailed pre post q _ hr =>
      refine ⟨ih.1, ?_⟩
      intro q' m pos hm
      exact ih.2 q' m pos (by rw [hr]; exact mem_removed hm)
    | restart _ => exact ih

/-- **C53.** Adding never accumulates a model, whatever overlaps: in every history the file of every region is the one
    that was there at the start, or every byte of it is zero or comes from the same place of the STL file of one of the
    meshes sent for a region of this name. -/
theorem file_holds_pieces {disk : Bytes → Option Bytes} {s : State F} (h : Reach env (start disk) s) {name b : Bytes}
    (hb : s.disk name = some b) :
    disk name = some b ∨ ∀ (i : Nat) c, b[i]? = some c → c = 0 ∨ ∃ region stl mesh, filename env.fmtV region = name ∧
      StlText.stlToMesh env.f32 env.parseF stl = .ok mesh ∧ (env.stlFile mesh)[i]? = some c :=
  (files_reach h).1 name b hb

/-- No file on the disk can be read as a model, and no handler is about to write a nil model. -/
def NoModel (s : State F) : Prop :=
  (∀ name, ¬ Readable F s.disk name) ∧ (∀ q, (q, Pending.writeNil) ∉ s.running) ∧
    ∀ q r, (q, r) ∈ s.replies → r = .error ∨ ∃ region stl, q = .add region stl

theorem readModel_none {disk : Bytes → Option Bytes} {name : Bytes} (h : ¬ Readable F disk name) :
    readModel (F := F) disk name = none := by
  cases hr : readModel (F := F) disk name with
  | none => rfl
  | some b => exact absurd ⟨b, hr⟩ h

theorem noModel_answer_error {s : State F} (h : NoModel s) (q : Request F) : NoModel (s.answer q .error) := by
  refine ⟨h.1, h.2.1, ?_⟩
  intro q' r hm
  rcases List.mem_cons.mp hm with e | hm
  · rw [Prod.mk.injEq] at e; exact Or.inl e.2
  · exact h.2.2 q' r hm

theorem noModel_handleRead {s : State F} (h : NoModel s) (q : Request F) {inp : Option Input}
    (hn : BinVOX.Read (F := F) inp ⟨0, 0, 0, 0, 0, 0⟩ = none) : NoModel (handleRead env s q inp) := by
  cases q with
  | add region stl =>
    unfold handleRead
    dsimp only
    rw [hn]
    split
    · exact ⟨h.1, fun q hm => (List.not_mem_nil hm).elim, h.2.2⟩
    · exact noModel_answer_error h _
    · refine ⟨h.1, ?_, h.2.2⟩
      intro q hm
      rcases List.mem_cons.mp hm with e | hm
      · simp at e
      · exact h.2.1 q hm
  | sub region stl =>
    unfold handleRead
    dsimp only
    rw [hn]
    exact noModel_answer_error h _
  | get region =>
    unfold handleRead
    dsimp only
    rw [hn]
    exact noModel_answer_error h _

omit [FloatText F] in
theorem torn_file {disk : Bytes → Option Bytes} {name b : Bytes} (h : disk name = some b ∨ Pieces env name b) : Torn env disk name b := by
  intro i c hc
  rcases h with h | h
  · exact .inl ⟨b, h, hc⟩
  · exact .inr (h i c hc)

omit [FloatText F] in
theorem torn_more {disk : Bytes → Option Bytes} {name got b : Bytes} (h : Torn env disk name got) (hb : Torn env disk name b) (n : Nat) :
    Torn env disk name (got ++ (b.drop got.length).take n) := by
  intro i c hc
  by_cases hi : i < got.length
  · rw [List.getElem?_append_left hi] at hc
    exact h i c hc
  · rw [List.getElem?_append_right (by omega), List.getElem?_take] at hc
    split at hc
    · rw [List.getElem?_drop, show got.length + (i - got.length) = i by omega] at hc
      exact hb i c hc
    · cases hc

theorem torn_reach {disk : Bytes → Option Bytes} {s : State F} (h : Reach env (start disk) s) :
    ∀ q got, (q, Pending.reading got) ∈ s.running → Torn env disk (q.file env) got := by
  induction h with
  | refl => exact fun _ _ hm => (List.not_mem_nil hm).elim
  | killed _ _ => intro _ _ hm; cases hm
  | @step t u hreach hs ih =>
    have hrem : ∀ {pre post : List (Request F × Pending F)} {x}, t.running = pre ++ x :: post →
        ∀ q got, (q, Pending.reading got) ∈ pre ++ post → Torn env disk (q.file env) got := by
      intro pre post x hr q got hm
      exact ih q got (by rw [hr]; exact mem_removed hm)
    intro q got hm
    cases hs with
    | request q' _ ha =>
      rcases arrive_running ha hm with h | e | ⟨_, _, _, e, _⟩ | ⟨e, -⟩
      · exact ih q got h
      · simp at e
      · simp at e
      · simp only [Prod.mk.injEq, Pending.reading.injEq] at e
        rw [e.2]
        intro i c hc
        simp at hc
    | @read pre post q' got' b n _ hr hb =>
      rcases mem_replaced (x := (q', Pending.reading got')) hm with e | hm
      · simp only [Prod.mk.injEq, Pending.reading.injEq] at e
        obtain ⟨rfl, rfl⟩ := e
        exact torn_more (ih q got' (by rw [hr]; simp)) (torn_file ((files_reach hreach).1 _ _ hb)) n
      · exact ih q got (by rw [hr]; exact hm)
    | @readEnd pre post q' got' b clean _ hr _ _ =>
      rcases handleRead_running hm with h | e | ⟨_, _, _, e, _⟩
      · exact hrem hr q got h
      · simp at e
      · simp at e
    | @created pre post q' mesh _ hr =>
      rcases mem_replaced (x := (q', Pending.save mesh)) hm with e | hm
      · simp at e
      · exact ih q got (by rw [hr]; exact hm)
    | @wrote pre post q' mesh pos b n _ hr _ _ _ =>
      rcases mem_replaced (x := (q', Pending.saving mesh pos)) hm with e | hm
      · simp at e
      · exact ih q got (by rw [hr]; exact hm)
    | saved _ hr => exact hrem hr q got hm
    | notCreated _ hr => exact hrem hr q got hm
    | saveFailed _ hr => exact hrem hr q got hm
    | wroteNil _ hr => cases hm
    | createFailed _ hr => exact hrem hr q got hm
    | restart _ => exact ih q got hm

omit [FloatText F] in
theorem stlFile_zeros (mesh : List (Tri (BinVOX.Vec F))) {i : Nat} (hi : i < 80) : (env.stlFile mesh)[i]? = some 0 := by
  unfold Env.stlFile Spec.stlBinary
  simp only [List.append_assoc]
  rw [List.getElem?_append_left (by rw [List.length_replicate]; exact hi), List.getElem?_replicate, if_pos hi]

/-- What a reader has seen is not a model if the old file does not begin like one. -/
theorem torn_unreadable {disk : Bytes → Option Bytes} {name b : Bytes} (h0 : ∀ old, disk name = some old → ¬ binvoxMagic <+: old)
    (h : Torn env disk name b) (clean : Bool) : BinVOX.Read (F := F) (some ⟨b, clean⟩) ⟨0, 0, 0, 0, 0, 0⟩ = none := by
  cases hr : BinVOX.Read (F := F) (some ⟨b, clean⟩) ⟨0, 0, 0, 0, 0, 0⟩ with
  | none => rfl
  | some m =>
    exfalso
    obtain ⟨t, rfl⟩ := read_magic hr
    have hold : ∀ (i : Nat) c, binvoxMagic[i]? = some c → ∃ old, disk name = some old ∧ old[i]? = some c := by
      intro i c hc
      have hi : i < binvoxMagic.length := (List.getElem?_eq_some_iff.mp hc).1
      have hc0 : c ≠ 0 := by
        have hm := List.mem_of_getElem? hc
        rintro rfl
        revert hm
        decide
      have hi80 : i < 80 := lt_of_lt_of_le hi (by decide)
      rcases h i c (by rw [List.getElem?_append_left hi]; exact hc) with h | rfl | ⟨_, _, mesh, -, -, hm⟩
      · exact h
      · exact absurd rfl hc0
      · rw [stlFile_zeros mesh hi80] at hm
        exact absurd (Option.some.inj hm).symm hc0
    obtain ⟨old, ho, -⟩ := hold 0 35 (by decide)
    apply h0 old ho
    rw [List.prefix_iff_getElem?]
    intro i hi
    obtain ⟨old', ho', h'⟩ := hold i binvoxMagic[i] (List.getElem?_eq_getElem hi)
    rw [ho] at ho'
    rw [Option.some.inj ho']
    exact h'

theorem unreadable_reach {disk : Bytes → Option Bytes} (h0 : ∀ name b, disk name = some b → ¬ binvoxMagic <+: b) {s : State F}
    (h : Reach env (start disk) s) : ∀ name, ¬ Readable F s.disk name := by
  rintro name ⟨m, hm⟩
  unfold readModel whole at hm
  cases hb : s.disk name with
  | none =>
    rw [hb] at hm
    cases hm
  | some b =>
    rw [hb, Option.map_some, torn_unreadable (h0 name) (torn_file ((files_reach h).1 name b hb))] at hm
    cases hm

theorem noModel_step {s t : State F} (h : NoModel s) (hrun : RunningOK (env := env) s) (hs : Step env s t)
    (ht : ∀ name, ¬ Readable F t.disk name)
    (hread : ∀ q got clean, (q, Pending.reading got) ∈ s.running → BinVOX.Read (F := F) (some ⟨got, clean⟩) ⟨0, 0, 0, 0, 0, 0⟩ = none) :
    NoModel t := by
  have hsub : ∀ {pre post : List (Request F × Pending F)} {x}, s.running = pre ++ x :: post →
      ∀ q, (q, Pending.writeNil) ∉ pre ++ post := by
    intro pre post x hr q hm
    apply h.2.1 q
    rw [hr]
    exact mem_removed hm
  have hrep : ∀ {pre post : List (Request F × Pending F)} {x y}, s.running = pre ++ x :: post →
      (∀ q, y ≠ (q, Pending.writeNil)) → ∀ q, (q, Pending.writeNil) ∉ pre ++ y :: post := by
    intro pre post x y hr hy q hm
    rcases mem_replaced (x := x) hm with e | hm
    · exact hy q e.symm
    · apply h.2.1 q
      rw [hr]
      exact hm
  cases hs with
  | request q _ ha =>
    cases ha with
    | atOnce => exact noModel_handleRead h q (readModel_none (h.1 _))
    | unopened => exact noModel_handleRead h q rfl
    | opened hb hq =>
      refine ⟨h.1, ?_, h.2.2⟩
      intro q hm
      rcases List.mem_cons.mp hm with e | hm
      · simp at e
      · exact h.2.1 q hm
  | read n _ hr _ => exact ⟨ht, hrep hr (by intro q e; simp at e), h.2.2⟩
  | @readEnd pre post q got b clean _ hr _ _ =>
    exact noModel_handleRead (s := { s with running := pre ++ post }) ⟨h.1, hsub hr, h.2.2⟩ q (hread q got clean (by rw [hr]; simp))
  | created _ hr => exact ⟨ht, hrep hr (by intro q e; simp at e), h.2.2⟩
  | wrote n _ hr _ _ _ => exact ⟨ht, hrep hr (by intro q e; simp at e), h.2.2⟩
  | @saved pre post q mesh _ hr =>
    refine ⟨ht, hsub hr, ?_⟩
    intro q' r hm
    rcases List.mem_cons.mp hm with e | hm
    · rw [Prod.mk.injEq] at e
      obtain ⟨region, stl, hq, -⟩ := hrun q (.saving mesh (env.stlFile mesh).length) mesh (by rw [hr]; simp) rfl
      exact Or.inr ⟨region, stl, by rw [e.1, hq]⟩
    · exact h.2.2 q' r hm
  | @notCreated pre post q mesh _ hr =>
    exact noModel_answer_error (s := { s with running := pre ++ post }) ⟨h.1, hsub hr, h.2.2⟩ q
  | @saveFailed pre post q mesh pos _ hr =>
    exact noModel_answer_error (s := { s with running := pre ++ post }) ⟨h.1, hsub hr, h.2.2⟩ q
  | wroteNil _ hr => exact absurd hr (h.2.1 _)
  | @createFailed pre post q _ hr => exact absurd (by rw [hr]; simp) (h.2.1 q)
  | restart _ => exact ⟨h.1, h.2⟩

theorem noModel_reach {disk : Bytes → Option Bytes} (h0 : ∀ name b, disk name = some b → ¬ binvoxMagic <+: b) {s : State F}
    (h : Reach env (start disk) s) : NoModel s := by
  induction h with
  | refl => exact ⟨unreadable_reach (env := env) h0 .refl, fun q hm => (List.not_mem_nil hm).elim, fun q r hm => (List.not_mem_nil hm).elim⟩
  | step hr hs ih =>
    exact noModel_step ih (reach_invariant hr).2 hs (unreadable_reach h0 (.step hr hs))
      fun q got clean hm => torn_unreadable (h0 _) (torn_reach hr q got hm) clean
  | killed _ ih => exact ⟨ih.1, fun q hm => (List.not_mem_nil hm).elim, ih.2.2⟩

/-- **C53.** A slave started where no file begins with the line `#binvox 1` never gives a model back: whatever meshes were
    added and whatever overlaps, every `GetSTLMesh` and every `SubSTLMesh` in every history is answered with an error. -/
theorem slave_keeps_no_model {disk : Bytes → Option Bytes} (h0 : ∀ name b, disk name = some b → ¬ ascii "#binvox 1\n" <+: b) {s : State F}
    (h : Reach env (start disk) s) :
    (∀ name, ¬ Readable F s.disk name) ∧
    ∀ q r, (q, r) ∈ s.replies → r ≠ .error → ∃ region stl, q = .add region stl := by
  have hn := noModel_reach h0 h
  refine ⟨hn.1, ?_⟩
  intro q r hm hne
  rcases hn.2.2 q r hm with e | e
  · exact absurd e hne
  · exact e

theorem handleRead_dead {s : State F} {q : Request F} {inp : Option Input} (hn : BinVOX.Read (F := F) inp ⟨0, 0, 0, 0, 0, 0⟩ = none)
    (ha : s.dead = false) (hd : (handleRead env s q inp).dead = true) :
    ∃ region stl, q = .add region stl ∧ handleRead env s q inp = handle env s q ∧ StlText.stlToMesh env.f32 env.parseF stl = .panic := by
  have hf : s.dead = true → False := by intro h; rw [ha] at h; cases h
  cases q with
  | add region stl =>
    refine ⟨region, stl, rfl, ?_⟩
    cases hp : StlText.stlToMesh env.f32 env.parseF stl with
    | panic =>
      refine ⟨?_, rfl⟩
      unfold handle handleRead
      dsimp only
      rw [hp]
    | err =>
      unfold handleRead at hd
      dsimp only at hd
      rw [hp] at hd
      exact (hf hd).elim
    | ok mesh =>
      unfold handleRead at hd
      dsimp only at hd
      rw [hp, hn] at hd
      exact (hf hd).elim
  | sub region stl =>
    unfold handleRead at hd
    dsimp only at hd
    rw [hn] at hd
    exact (hf hd).elim
  | get region =>
    unfold handleRead at hd
    dsimp only at hd
    rw [hn] at hd
    exact (hf hd).elim

/-- **C53.** Such a slave dies only of STL data whose vertices do not come in threes. -/
theorem slave_dies_only_of_data {disk : Bytes → Option Bytes} (h0 : ∀ name b, disk name = some b → ¬ ascii "#binvox 1\n" <+: b)
    {s t : State F} (h : Reach env (start disk) s) (hs : Step env s t) (ha : s.dead = false) (hd : t.dead = true) :
    ∃ region stl, t = handle env s (.add region stl) ∧ StlText.stlToMesh env.f32 env.parseF stl = .panic := by
  have hn := noModel_reach h0 h
  have hf : s.dead = true → False := by intro h; rw [ha] at h; cases h
  cases hs with
  | request q _ har =>
    cases har with
    | atOnce =>
      obtain ⟨region, stl, rfl, e, hp⟩ := handleRead_dead (readModel_none (hn.1 _)) ha hd
      exact ⟨region, stl, rfl, hp⟩
    | unopened =>
      obtain ⟨region, stl, rfl, e, hp⟩ := handleRead_dead rfl ha hd
      exact ⟨region, stl, e, hp⟩
    | opened _ _ => exact (hf hd).elim
  | read n _ hr _ => exact (hf hd).elim
  | @readEnd pre post q got b clean _ hr _ _ =>
    obtain ⟨region, stl, rfl, e, hp⟩ := handleRead_dead (s := { s with running := pre ++ post })
      (torn_unreadable (h0 _) (torn_reach h q got (by rw [hr]; simp)) clean) ha hd
    obtain ⟨mesh, hm⟩ := readers_reach h region stl got (by rw [hr]; simp)
    rw [hm] at hp
    cases hp
  | created _ hr => exact (hf hd).elim
  | wrote n _ hr _ _ _ => exact (hf hd).elim
  | notCreated _ hr => exact (hf hd).elim
  | saved _ hr => exact (hf hd).elim
  | saveFailed _ hr => exact (hf hd).elim
  | wroteNil _ hr => exact absurd hr (hn.2.1 _)
  | createFailed _ hr => exact (hf hd).elim
  | restart hr => rw [ha] at hr; cases hr

/-- No two requests under way are about the same file. -/
def Apart (env : Env F) (s : State F) : Prop := (s.running.map fun x => x.1.file env).Nodup

/-- Histories in which requests that change the same file never overlap. -/
inductive ReachApart (env : Env F) : State F → State F → Prop
  | refl {s} : ReachApart env s s
  | step {s t u} : ReachApart env s t → Step env t u → Apart env u → ReachApart env s u
  | killed {s t} : ReachApart env s t → ReachApart env s t.die

theorem ReachApart.reach {s t : State F} (h : ReachApart env s t) : Reach env s t := by
  induction h with
  | refl => exact .refl
  | step _ hs _ ih => exact .step ih hs
  | killed _ ih => exact .killed ih

theorem writeAt_end {b c : Bytes} {pos : Nat} (h : b.length = pos) : writeAt b pos c = b ++ c := by
  unfold writeAt
  rw [List.take_of_length_le (by omega), List.drop_of_length_le (by omega), h, Nat.sub_self]
  simp

/-- A handler that saves has written a beginning of its mesh, and nothing else is in the file. -/
def OwnPrefix (env : Env F) (disk : Bytes → Option Bytes) (s : State F) : Prop :=
  Apart env s ∧
  (∀ name b, s.disk name = some b → disk name = some b ∨ b = [] ∨ ∃ region stl mesh, filename env.fmtV region = name ∧
      StlText.stlToMesh env.f32 env.parseF stl = .ok mesh ∧ b <+: env.stlFile mesh) ∧
  ∀ q mesh pos, (q, Pending.saving mesh pos) ∈ s.running →
    pos ≤ (env.stlFile mesh).length ∧ s.disk (q.file env) = some ((env.stlFile mesh).take pos)

omit [FloatText F] in
theorem apart_rest {s : State F} {pre post : List (Request F × Pending F)} {q p} (h : Apart env s)
    (hr : s.running = pre ++ (q, p) :: post) {x : Request F × Pending F} (hx : x ∈ pre ++ post) : x.1.file env ≠ q.file env := by
  unfold Apart at h
  rw [hr, List.map_append, List.map_cons] at h
  have hp := (List.perm_middle (l₁ := pre.map fun x => x.1.file env) (l₂ := post.map fun x => x.1.file env)
    (a := q.file env)).nodup_iff.mp h
  rw [List.nodup_cons, ← List.map_append] at hp
  intro e
  exact hp.1 (List.mem_map.mpr ⟨x, hx, e⟩)

theorem mem_split_cons {α : Type} {pre post : List α} {y z : α} (h : z ∈ pre ++ y :: post) : z = y ∨ z ∈ pre ++ post := by
  simp only [List.mem_append, List.mem_cons] at h ⊢
  tauto

theorem apart_reach {disk : Bytes → Option Bytes} {s : State F} (h : ReachApart env (start disk) s) : OwnPrefix env disk s := by
  induction h with
  | refl => exact ⟨List.nodup_nil, fun name b hb => Or.inl hb, fun q mesh pos hm => (List.not_mem_nil hm).elim⟩
  | killed _ ih => exact ⟨List.nodup_nil, ih.2.1, fun q mesh pos hm => (List.not_mem_nil hm).elim⟩
  | @step t u hreach hs hap ih =>
    have hrun := (reach_invariant hreach.reach).2
    refine ⟨hap, ?_⟩
    obtain ⟨ihA, ih1, ih2⟩ := ih
    cases hs with
    | request q _ ha =>
      refine ⟨?_, ?_⟩
      · rw [arrive_disk ha]; exact ih1
      · intro q' mesh pos hm
        rw [arrive_disk ha]
        exact ih2 q' mesh pos (arrive_saving ha hm)
    | @read pre post q got b n _ hr _ =>
      refine ⟨ih1, ?_⟩
      intro q' m pos hm
      rcases mem_replaced (x := (q, Pending.reading got)) hm with e | hm
      · simp at e
      · exact ih2 q' m pos (by rw [hr]; exact hm)
    | @readEnd pre post q got b clean _ hr _ _ =>
      refine ⟨?_, ?_⟩
      · rw [handleRead_disk]; exact ih1
      · intro q' mesh pos hm
        rw [handleRead_disk]
        exact ih2 q' mesh pos (by rw [hr]; exact mem_removed (handle_saving hm))
    | @created pre post q mesh _ hr =>
      refine ⟨?_, ?_⟩
      · intro name b hb
        by_cases hn : name = q.file env
        · subst hn
          have hb : setFile t.disk (q.file env) [] (q.file env) = some b := hb
          rw [setFile_self] at hb
          exact Or.inr (Or.inl (Option.some.inj hb).symm)
        · have hb : setFile t.disk (q.file env) [] name = some b := hb
          rw [setFile_other _ hn] at hb
          exact ih1 name b hb
      · intro q' m pos hm
        show _ ∧ setFile t.disk (q.file env) [] (q'.file env) = _
        rcases mem_split_cons hm with e | hm
        · simp only [Prod.mk.injEq, Pending.saving.injEq] at e
          obtain ⟨rfl, rfl, rfl⟩ := e
          exact ⟨Nat.zero_le _, by rw [setFile_self, List.take_zero]⟩
        · rw [setFile_other _ (apart_rest ihA hr hm)]
          exact ih2 q' m pos (by rw [hr]; exact mem_removed hm)
    | @wrote pre post q mesh pos b n _ hr hb _ hn =>
      have hmem : (q, Pending.saving mesh pos) ∈ t.running := by rw [hr]; simp
      obtain ⟨region, stl, hq, hm⟩ := hrun q _ mesh hmem rfl
      obtain ⟨hle, hfile⟩ := ih2 q mesh pos hmem
      have hbe : b = (env.stlFile mesh).take pos := Option.some.inj (hb.symm.trans hfile)
      have hw : writeAt b pos (((env.stlFile mesh).drop pos).take n) = (env.stlFile mesh).take (pos + n) := by
        rw [writeAt_end (by rw [hbe, List.length_take]; omega), hbe, List.take_add]
      refine ⟨?_, ?_⟩
      · intro name b' hb'
        by_cases hnm : name = q.file env
        · subst hnm
          have hb' : setFile t.disk (q.file env) _ (q.file env) = some b' := hb'
          rw [setFile_self, hw] at hb'
          refine Or.inr (Or.inr ⟨region, stl, mesh, by rw [hq]; rfl, hm, ?_⟩)
          rw [← Option.some.inj hb']
          exact List.take_prefix _ _
        · have hb' : setFile t.disk (q.file env) _ name = some b' := hb'
          rw [setFile_other _ hnm] at hb'
          exact ih1 name b' hb'
      · intro q' m pos' hm'
        show _ ∧ setFile t.disk (q.file env) _ (q'.file env) = _
        rcases mem_split_cons hm' with e | hm'
        · simp only [Prod.mk.injEq, Pending.saving.injEq] at e
          obtain ⟨rfl, rfl, rfl⟩ := e
          exact ⟨hn, by rw [setFile_self, hw]⟩
        · rw [setFile_other _ (apart_rest ihA hr hm')]
          exact ih2 q' m pos' (by rw [hr]; exact mem_removed hm')
    | @saved pre post q mesh _ hr => exact ⟨ih1, fun q' m pos hm => ih2 q' m pos (by rw [hr]; exact mem_removed hm)⟩
    | @notCreated pre post q mesh _ hr => exact ⟨ih1, fun q' m pos hm => ih2 q' m pos (by rw [hr]; exact mem_removed hm)⟩
    | @saveFailed pre post q mesh pos _ hr => exact ⟨ih1, fun q' m pos hm => ih2 q' m pos (by rw [hr]; exact mem_removed hm)⟩
    | @wroteNil q _ hr =>
      refine ⟨?_, fun q mesh pos hm => (List.not_mem_nil hm).elim⟩
      intro name b hb
      have hb : setFile t.disk (q.file env) [] name = some b := hb
      by_cases hn : name = q.file env
      · rw [hn, setFile_self] at hb
        exact Or.inr (Or.inl (Option.some.inj hb).symm)
      · rw [setFile_other _ hn] at hb
        exact ih1 name b hb
    | @createFailed pre post q _ hr => exact ⟨ih1, fun q' m pos hm => ih2 q' m pos (by rw [hr]; exact mem_removed hm)⟩
    | restart _ => exact ⟨ih1, ih2⟩

/-- **C53.** While requests for one file do not overlap, a handler that reads has read a beginning of the file as it is now. -/
theorem apart_reads {disk : Bytes → Option Bytes} {s : State F} (h : ReachApart env (start disk) s) :
    ∀ q got, (q, Pending.reading got) ∈ s.running → ∃ b, s.disk (q.file env) = some b ∧ got <+: b := by
  induction h with
  | refl => exact fun _ _ hm => (List.not_mem_nil hm).elim
  | killed _ _ => intro _ _ hm; cases hm
  | @step t u hreach hs hap ih =>
    have hA := (apart_reach hreach).1
    have hrem : ∀ {pre post : List (Request F × Pending F)} {x}, t.running = pre ++ x :: post →
        ∀ q got, (q, Pending.reading got) ∈ pre ++ post → ∃ b, t.disk (q.file env) = some b ∧ got <+: b := by
      intro pre post x hr q got hm
      exact ih q got (by rw [hr]; exact mem_removed hm)
    intro q got hm
    cases hs with
    | request q' _ ha =>
      cases ha with
      | atOnce =>
        rcases handleRead_running hm with h | e | ⟨_, _, _, e, _⟩
        · unfold handle; rw [handleRead_disk]; exact ih q got h
        · simp at e
        · simp at e
      | unopened =>
        rcases handleRead_running hm with h | e | ⟨_, _, _, e, _⟩
        · rw [handleRead_disk]; exact ih q got h
        · simp at e
        · simp at e
      | @opened b hb _ =>
        rcases List.mem_cons.mp hm with e | hm
        · simp only [Prod.mk.injEq, Pending.reading.injEq] at e
          rw [e.1, e.2]
          exact ⟨b, hb, List.nil_prefix⟩
        · exact ih q got hm
    | @read pre post q' got' b n _ hr hb =>
      rcases mem_replaced (x := (q', Pending.reading got')) hm with e | hm
      · simp only [Prod.mk.injEq, Pending.reading.injEq] at e
        obtain ⟨rfl, rfl⟩ := e
        obtain ⟨b', hb', c, rfl⟩ := ih q got' (by rw [hr]; simp)
        obtain rfl : got' ++ c = b := Option.some.inj (hb'.symm.trans hb)
        refine ⟨_, hb, ?_⟩
        rw [List.drop_left]
        exact (List.prefix_append_right_inj _).mpr (List.take_prefix _ _)
      · exact ih q got (by rw [hr]; exact hm)
    | @readEnd pre post q' got' b clean _ hr _ _ =>
      rw [handleRead_disk]
      rcases handleRead_running hm with h | e | ⟨_, _, _, e, _⟩
      · exact hrem hr q got h
      · simp at e
      · simp at e
    | @created pre post q' mesh _ hr =>
      rcases mem_split_cons hm with e | hm
      · simp at e
      · show ∃ b, setFile t.disk (q'.file env) _ (q.file env) = some b ∧ _
        rw [setFile_other _ (apart_rest hA hr hm)]
        exact hrem hr q got hm
    | @wrote pre post q' mesh pos b n _ hr _ _ _ =>
      rcases mem_split_cons hm with e | hm
      · simp at e
      · show ∃ b, setFile t.disk (q'.file env) _ (q.file env) = some b ∧ _
        rw [setFile_other _ (apart_rest hA hr hm)]
        exact hrem hr q got hm
    | saved _ hr => exact hrem hr q got hm
    | notCreated _ hr => exact hrem hr q got hm
    | saveFailed _ hr => exact hrem hr q got hm
    | wroteNil _ hr => cases hm
    | createFailed _ hr => exact hrem hr q got hm
    | restart _ => exact ih q got hm

/-- **C53.** While requests for one file do not overlap, a handler that has read to the end goes on as if it had read the
    file at once. -/
theorem apart_reads_whole {disk : Bytes → Option Bytes} {s : State F} (h : ReachApart env (start disk) s)
    {pre post : List (Request F × Pending F)} {q : Request F} {got b : Bytes} (hr : s.running = pre ++ (q, Pending.reading got) :: post)
    (hb : s.disk (q.file env) = some b) (he : b.length ≤ got.length) :
    handleRead env { s with running := pre ++ post } q (some ⟨got, true⟩) = handle env { s with running := pre ++ post } q := by
  obtain ⟨b', hb', hp⟩ := apart_reads h q got (by rw [hr]; simp)
  obtain rfl : b' = b := Option.some.inj (hb'.symm.trans hb)
  rw [hp.eq_of_length_le he]
  unfold handle whole
  dsimp only
  rw [hb]
  rfl

/-- **C53.** While requests that change the same file do not overlap, the file of every region always holds what was there
    at the start, nothing, or (a part of) one single mesh that was sent for a region of this name. -/
theorem file_holds_one_mesh {disk : Bytes → Option Bytes} {s : State F} (h : ReachApart env (start disk) s) {name b : Bytes}
    (hb : s.disk name = some b) :
    disk name = some b ∨ b = [] ∨ ∃ region stl mesh, filename env.fmtV region = name ∧
      StlText.stlToMesh env.f32 env.parseF stl = .ok mesh ∧ b <+: env.stlFile mesh :=
  (apart_reach h).2.1 name b hb

/-- **C53.** In such a history, at the moment a mesh is reported as added the file of its region is exactly the STL file of
    this mesh. -/
theorem added_file_exact {disk : Bytes → Option Bytes} {s t : State F} (h : ReachApart env (start disk) s) (hs : Step env s t)
    {region : VoxelRegion F} {stl : Bytes} {r : Bytes} (hr : t.replies = (.add region stl, .ok r) :: s.replies) :
    r = [] ∧ ∃ mesh, StlText.stlToMesh env.f32 env.parseF stl = .ok mesh ∧
      t.disk (filename env.fmtV region) = some (env.stlFile mesh) := by
  have hrun := (reach_invariant h.reach).2
  have hne : ∀ {q : Request F} {t' : State F}, t'.replies = s.replies → t'.replies = (.add region stl, .ok r) :: s.replies → False := by
    intro q t' e1 e2
    rw [e1] at e2
    exact absurd (congrArg List.length e2) (by simp)
  have herr : ∀ {q : Request F}, (q, Reply.error) :: s.replies = (.add region stl, .ok r) :: s.replies → False := by
    intro q e
    rw [List.cons.injEq, Prod.mk.injEq] at e
    cases e.1.2
  cases hs with
  | request q _ ha =>
    rcases arrive_replies ha with e | e | ⟨e, ⟨region', rfl⟩, -⟩
    · exact (hne (q := .get region) e hr).elim
    · exact (herr (q := q) (e.symm.trans hr)).elim
    · have hr := e.symm.trans hr
      rw [List.cons.injEq, Prod.mk.injEq] at hr
      cases hr.1.1
  | read n _ _ _ => exact (hne (q := .get region) (t' := s) rfl hr).elim
  | @readEnd pre post q got b clean _ hrn _ _ =>
    rcases handleRead_replies (env := env) { s with running := pre ++ post } q (some ⟨got, clean⟩) with e | e | ⟨e, ⟨region', rfl⟩, -⟩
    · exact (hne (q := .get region) e hr).elim
    · exact (herr (q := q) (e.symm.trans hr)).elim
    · have hr := e.symm.trans hr
      rw [List.cons.injEq, Prod.mk.injEq] at hr
      cases hr.1.1
  | created _ _ => exact (hne (q := .get region) (t' := s) rfl hr).elim
  | wrote n _ _ _ _ _ => exact (hne (q := .get region) (t' := s) rfl hr).elim
  | @saved pre post q mesh _ hrn =>
    have hr : (q, Reply.ok []) :: s.replies = (.add region stl, .ok r) :: s.replies := hr
    rw [List.cons.injEq, Prod.mk.injEq] at hr
    obtain ⟨⟨rfl, e⟩, -⟩ := hr
    injection e with e
    have hmem : (Request.add region stl, Pending.saving mesh (env.stlFile mesh).length) ∈ s.running := by rw [hrn]; simp
    obtain ⟨region', stl', hq, hm⟩ := hrun _ _ mesh hmem rfl
    injection hq with e1 e2
    obtain ⟨-, hf⟩ := (apart_reach h).2.2 _ _ _ hmem
    refine ⟨e.symm, mesh, by rw [e2]; exact hm, ?_⟩
    rw [List.take_length] at hf
    exact hf
  | notCreated _ _ => exact (herr hr).elim
  | saveFailed _ _ => exact (herr hr).elim
  | wroteNil _ _ => exact (hne (q := .get region) (t' := s) rfl hr).elim
  | createFailed _ _ => exact (herr hr).elim
  | restart _ => exact (hne (q := .get region) (t' := s) rfl hr).elim

theorem Reach.trans {s t u : State F} (h : Reach env s t) (h2 : Reach env t u) : Reach env s u := by
  induction h2 with
  | refl => exact h
  | step _ hs ih => exact .step ih hs
  | killed _ ih => exact .killed ih

omit [FloatText F] in
theorem stlFile_pos (mesh : List (Tri (BinVOX.Vec F))) : 0 < (env.stlFile mesh).length :=
  (List.getElem?_eq_some_iff.mp (stlFile_head (env := env) mesh)).1

theorem setFile_twice (disk : Bytes → Option Bytes) (name b c : Bytes) : setFile (setFile disk name b) name c = setFile disk name c := by
  funext n
  unfold setFile
  split <;> rfl

/-- Writing everything at once. -/
theorem write_through {s : State F} {pre post : List (Request F × Pending F)} {q : Request F} {mesh : List (Tri (BinVOX.Vec F))}
    {b : Bytes} (ha : s.dead = false) (hr : s.running = pre ++ (q, Pending.saving mesh 0) :: post) (hb : s.disk (q.file env) = some b) :
    Step env s { s with running := pre ++ (q, Pending.saving mesh (env.stlFile mesh).length) :: post,
                        disk := setFile s.disk (q.file env) (env.stlFile mesh ++ b.drop (env.stlFile mesh).length) } := by
  have h2 := Step.wrote (pre := pre) (post := post) (q := q) (mesh := mesh) (pos := 0) (b := b) (env.stlFile mesh).length
    ha hr hb (stlFile_pos mesh) (by omega)
  have e : writeAt b 0 (((env.stlFile mesh).drop 0).take (env.stlFile mesh).length) = env.stlFile mesh ++ b.drop (env.stlFile mesh).length := by
    unfold writeAt
    rw [List.drop_zero, List.take_length, List.take_zero, Nat.zero_sub, List.replicate_zero, Nat.zero_add]
    rfl
  rw [e, Nat.zero_add] at h2
  exact h2

/-- Saving without a pause. -/
theorem save_through {s : State F} {pre post : List (Request F × Pending F)} {q : Request F} {mesh : List (Tri (BinVOX.Vec F))}
    (ha : s.dead = false) (hr : s.running = pre ++ (q, Pending.save mesh) :: post) :
    ∃ s1 s2 : State F, Step env s s1 ∧ Step env s1 s2 ∧
      Step env s2 { s with running := pre ++ post, replies := (q, .ok []) :: s.replies,
                           disk := setFile s.disk (q.file env) (env.stlFile mesh) } ∧
      s1.running = pre ++ (q, .saving mesh 0) :: post ∧ s2.running = pre ++ (q, .saving mesh (env.stlFile mesh).length) :: post ∧
      s2.replies = s.replies := by
  have h2 := write_through (env := env)
    (s := { s with running := pre ++ (q, Pending.saving mesh 0) :: post, disk := setFile s.disk (q.file env) [] }) (b := [])
    ha rfl (setFile_self _ _ _)
  dsimp only at h2
  rw [setFile_twice, List.drop_nil, List.append_nil] at h2
  exact ⟨_, _, .created ha hr, h2, .saved ha rfl, rfl, rfl, rfl⟩

theorem save_reach {s : State F} {pre post : List (Request F × Pending F)} {q : Request F} {mesh : List (Tri (BinVOX.Vec F))}
    (ha : s.dead = false) (hr : s.running = pre ++ (q, Pending.save mesh) :: post) :
    Reach env s { s with running := pre ++ post, replies := (q, .ok []) :: s.replies,
                         disk := setFile s.disk (q.file env) (env.stlFile mesh) } := by
  obtain ⟨s1, s2, h1, h2, h3, -⟩ := save_through (env := env) ha hr
  exact .step (.step (.step .refl h1) h2) h3

/-- **C53**, a defect: two `AddSTLMesh` for one region that overlap can both be answered with success and leave a file that
    begins with the one mesh and ends with the other. -/
theorem overlapping_adds_mix {s : State F} {region : VoxelRegion F} {stlA stlB : Bytes} {meshA meshB : List (Tri (BinVOX.Vec F))}
    (ha : s.dead = false) (hA : StlText.stlToMesh env.f32 env.parseF stlA = .ok meshA)
    (hB : StlText.stlToMesh env.f32 env.parseF stlB = .ok meshB) (hn : ¬ Readable F s.disk (filename env.fmtV region)) :
    ∃ u, Reach env s u ∧ u.running = s.running ∧ u.dead = false ∧
      u.replies = (.add region stlB, .ok []) :: (.add region stlA, .ok []) :: s.replies ∧
      u.disk = setFile s.disk (filename env.fmtV region)
        (env.stlFile meshB ++ (env.stlFile meshA).drop (env.stlFile meshB).length) := by
  have e : ∀ (s' : State F) stl mesh, s'.disk = s.disk → StlText.stlToMesh env.f32 env.parseF stl = .ok mesh →
      handle env s' (.add region stl) = s'.later (.add region stl) (.save mesh) := by
    intro s' stl mesh hd hm
    unfold handle handleRead
    dsimp only
    rw [hm]
    dsimp only
    rw [show (Request.add region stl).file env = filename env.fmtV region from rfl, hd, read_whole, readModel_none hn]
  have h1 : Step env s (s.later (.add region stlA) (.save meshA)) := by
    rw [← e s stlA meshA rfl hA]
    exact .request _ ha .atOnce
  have h2 : Step env (s.later (.add region stlA) (.save meshA)) ((s.later (.add region stlA) (.save meshA)).later (.add region stlB) (.save meshB)) := by
    rw [← e (s.later (.add region stlA) (.save meshA)) stlB meshB rfl hB]
    exact .request _ ha .atOnce
  have h3 := Step.created (env := env) (s := (s.later (.add region stlA) (.save meshA)).later (.add region stlB) (.save meshB))
    (pre := [(.add region stlB, .save meshB)]) (post := s.running) (q := .add region stlA) (mesh := meshA) ha rfl
  have h4 := Step.created (env := env) (pre := []) (post := (.add region stlA, .saving meshA 0) :: s.running) (q := .add region stlB)
    (mesh := meshB) (s := { (s.later (.add region stlA) (.save meshA)).later (.add region stlB) (.save meshB) with
      running := [(.add region stlB, .save meshB)] ++ (.add region stlA, .saving meshA 0) :: s.running
      disk := setFile s.disk (Request.file env (.add region stlA)) [] }) ha rfl
  have h5 := write_through (env := env) (pre := [(.add region stlB, .saving meshB 0)]) (post := s.running) (q := .add region stlA)
    (mesh := meshA) (b := []) (s := { (s.later (.add region stlA) (.save meshA)).later (.add region stlB) (.save meshB) with
      running := [] ++ (.add region stlB, .saving meshB 0) :: (.add region stlA, .saving meshA 0) :: s.running
      disk := setFile (setFile s.disk (Request.file env (.add region stlA)) []) (Request.file env (.add region stlB)) [] })
    ha rfl (setFile_self _ _ _)
  have h6 := write_through (env := env) (pre := []) (post := (.add region stlA, .saving meshA (env.stlFile meshA).length) :: s.running)
    (q := .add region stlB) (mesh := meshB) (b := env.stlFile meshA ++ [].drop (env.stlFile meshA).length)
    (s := { (s.later (.add region stlA) (.save meshA)).later (.add region stlB) (.save meshB) with
      running := [(.add region stlB, .saving meshB 0)] ++ (.add region stlA, .saving meshA (env.stlFile meshA).length) :: s.running
      disk := setFile (setFile (setFile s.disk (Request.file env (.add region stlA)) []) (Request.file env (.add region stlB)) [])
        (Request.file env (.add region stlA)) (env.stlFile meshA ++ [].drop (env.stlFile meshA).length) })
    ha rfl (setFile_self _ _ _)
  have r6 := (((((Reach.refl.step h1).step h2).step h3).step h4).step h5).step h6
  have r7 := r6.step (.saved (pre := [(.add region stlB, .saving meshB (env.stlFile meshB).length)]) (post := s.running)
    (q := .add region stlA) (mesh := meshA) ha rfl)
  have r8 := r7.step (.saved (pre := []) (post := s.running) (q := .add region stlB) (mesh := meshB) ha rfl)
  refine ⟨_, r8, rfl, ha, rfl, ?_⟩
  show setFile (setFile (setFile (setFile s.disk (filename env.fmtV region) []) (filename env.fmtV region) [])
    (filename env.fmtV region) (env.stlFile meshA ++ [].drop (env.stlFile meshA).length)) (filename env.fmtV region)
    (env.stlFile meshB ++ (env.stlFile meshA ++ [].drop (env.stlFile meshA).length).drop (env.stlFile meshB).length) = _
  rw [setFile_twice, setFile_twice, setFile_twice, List.drop_nil, List.append_nil]

/-- **C53**, a defect: a `GetSTLMesh` that overlaps an `AddSTLMesh` for the same region sees the beginning of the old file
    and the end of the new one; if these two make a model it is answered with success, even if neither file is a model. -/
theorem overlapping_get_mixes {s : State F} {region : VoxelRegion F} {stl old : Bytes} {mesh : List (Tri (BinVOX.Vec F))}
    (ha : s.dead = false) (hA : StlText.stlToMesh env.f32 env.parseF stl = .ok mesh)
    (ho : s.disk (filename env.fmtV region) = some old) (hn : ¬ Readable F s.disk (filename env.fmtV region)) {m : BinVOX F} (k : Nat)
    (hk : k ≤ old.length) (hk2 : k ≤ (env.stlFile mesh).length)
    (hm : BinVOX.Read (some ⟨old.take k ++ (env.stlFile mesh).drop k, true⟩) ⟨0, 0, 0, 0, 0, 0⟩ = some m) :
    ∃ u, Reach env s u ∧ u.running = s.running ∧ u.dead = false ∧
      u.replies = (.get region, .ok []) :: (.add region stl, .ok []) :: s.replies := by
  have e : handle env s (.add region stl) = s.later (.add region stl) (.save mesh) := by
    unfold handle handleRead
    dsimp only
    rw [hA]
    dsimp only
    rw [show (Request.add region stl).file env = filename env.fmtV region from rfl, read_whole, readModel_none hn]
  have h1 : Step env s (s.later (.add region stl) (.save mesh)) := by
    rw [← e]
    exact .request _ ha .atOnce
  have h2 : Step env (s.later (.add region stl) (.save mesh)) ((s.later (.add region stl) (.save mesh)).later (.get region) (.reading [])) :=
    .request (.get region) ha (.opened (b := old) ho nofun)
  have h3 := Step.read (env := env) (s := (s.later (.add region stl) (.save mesh)).later (.get region) (.reading []))
    (pre := []) (post := (.add region stl, .save mesh) :: s.running) (q := .get region) (got := []) (b := old) k ha rfl ho
  rw [List.nil_append, List.length_nil, List.drop_zero, List.nil_append] at h3
  have h4 := save_reach (env := env) (pre := [(.get region, Pending.reading (old.take k))]) (post := s.running)
    (q := .add region stl) (mesh := mesh)
    (s := { (s.later (.add region stl) (.save mesh)).later (.get region) (.reading []) with
      running := (.get region, .reading (old.take k)) :: (.add region stl, .save mesh) :: s.running }) ha rfl
  have r4 := (((Reach.refl.step h1).step h2).step h3).trans h4
  have hl : (old.take k).length = k := by rw [List.length_take]; omega
  have h5 := r4.step (Step.read (pre := []) (post := s.running) (q := .get region) (got := old.take k) (b := env.stlFile mesh)
    (env.stlFile mesh).length ha rfl (setFile_self _ _ _))
  have e5 : ((env.stlFile mesh).drop k).take (env.stlFile mesh).length = (env.stlFile mesh).drop k :=
    List.take_of_length_le (by rw [List.length_drop]; omega)
  rw [hl, e5] at h5
  have h6 := h5.step (Step.readEnd (pre := []) (post := s.running) (q := .get region)
    (got := old.take k ++ (env.stlFile mesh).drop k) (b := env.stlFile mesh) true ha rfl (setFile_self _ _ _)
    (by intro _; rw [List.length_append, hl, List.length_drop]; omega))
  have e6 : ∀ s' : State F, handleRead env s' (.get region) (some ⟨old.take k ++ (env.stlFile mesh).drop k, true⟩) =
      s'.answer (.get region) (.ok []) := by
    intro s'
    unfold handleRead
    dsimp only
    rw [hm]
  rw [e6] at h6
  exact ⟨_, h6, rfl, ha, rfl⟩

end

/-- **C53.** A request to add that nothing interferes with leaves exactly its own mesh in the file, as an STL file. -/
theorem add_overwrites {s : State F} {region : VoxelRegion F} {stl : Bytes} {mesh : List (Tri (BinVOX.Vec F))}
    (ha : s.dead = false) (hm : StlText.stlToMesh env.f32 env.parseF stl = .ok mesh)
    (hn : ¬ Readable F s.disk (filename env.fmtV region)) :
    ∃ u, Reach env s u ∧ u.running = s.running ∧
      u.replies = (.add region stl, .ok []) :: s.replies ∧
      u.disk = setFile s.disk (filename env.fmtV region) (env.stlFile mesh) := by
  have e : handle env s (.add region stl) = s.later (.add region stl) (.save mesh) := by
    unfold handle handleRead
    dsimp only
    rw [hm]
    dsimp only
    rw [show (Request.add region stl).file env = filename env.fmtV region from rfl, read_whole, readModel_none hn]
  have h1 : Step env s (s.later (.add region stl) (.save mesh)) := by
    rw [← e]
    exact .request _ ha .atOnce
  have h2 := save_reach (env := env) (s := s.later (.add region stl) (.save mesh)) (pre := []) ha rfl
  exact ⟨_, Reach.trans (.step .refl h1) h2, rfl, rfl, rfl⟩

/-- **C53.** The file left by a successful `AddSTLMesh` of binary STL data is an STL file of the mesh
    that was sent: it parses to the same triangles. -/
theorem saved_file_parses
    (hf : ∀ m, m < 4294967296 → env.bits (env.f32 m) < 4294967296 ∧ env.f32 (env.bits (env.f32 m)) = env.f32 m)
    {stl : Bytes} (hb : stl.length = 84 + 50 * StlText.announced stl) {mesh : List (Tri (BinVOX.Vec F))}
    (hm : StlText.stlToMesh env.f32 env.parseF stl = .ok mesh) :
    StlText.stlToMesh env.f32 env.parseF (env.stlFile mesh) = StlText.stlToMesh env.f32 env.parseF stl := by
  rw [hm]
  exact StlText.stlToMesh_binary_again hf _ _ (List.length_replicate ..) hb hm

/-- **C53.** With a readable model on disk `GetSTLMesh` succeeds, but returns no data and does not
    reset the model. -/
theorem get_readable {s : State F} {region : VoxelRegion F} (hr : Readable F s.disk (filename env.fmtV region)) :
    handle env s (.get region) = { s with replies := (.get region, .ok []) :: s.replies } := by
  obtain ⟨b, hb⟩ := hr
  unfold handle handleRead
  dsimp only
  rw [show (Request.get region : Request F).file env = filename env.fmtV region from rfl, read_whole, hb]
  rfl

/-- **C53.** With a readable model on disk a mesh that is added or subtracted can only end in an error
    (the file cannot be created) or in the death of the server, with the model file emptied. -/
theorem readable_change_fatal {s t : State F} {region : VoxelRegion F} {stl : Bytes} {mesh : List (Tri (BinVOX.Vec F))}
    {q : Request F} (hq : q = .add region stl ∨ q = .sub region stl) (hidle : s.running = []) (ha : s.dead = false)
    (hm : StlText.stlToMesh env.f32 env.parseF stl = .ok mesh) (hr : Readable F s.disk (filename env.fmtV region))
    (hs : Step env (handle env s q) t) (hnew : ∀ q', ¬ Arrive env (handle env s q) q' t) :
    (t.dead = true ∧ t.disk (filename env.fmtV region) = some []) ∨
    (t.disk = s.disk ∧ t.replies = (q, .error) :: s.replies) := by
  obtain ⟨b, hb⟩ := hr
  have e : handle env s q = s.later q .writeNil := by
    rcases hq with rfl | rfl
    · unfold handle handleRead
      dsimp only
      rw [hm]
      dsimp only
      rw [show (Request.add region stl : Request F).file env = filename env.fmtV region from rfl, read_whole, hb]
    · unfold handle handleRead
      dsimp only
      rw [show (Request.sub region stl : Request F).file env = filename env.fmtV region from rfl, read_whole, hb, hm]
  have hrun : (s.later q .writeNil).running = [(q, .writeNil)] := by
    show (q, Pending.writeNil) :: s.running = _
    rw [hidle]
  have hfile : q.file env = filename env.fmtV region := by rcases hq with rfl | rfl <;> rfl
  rw [e] at hs hnew
  clear e hb
  generalize filename env.fmtV region = name at hfile ⊢
  generalize hs' : s.later q .writeNil = s' at hs hnew hrun
  have hone : ∀ {pre post : List (Request F × Pending F)} {x}, s'.running = pre ++ x :: post → x ≠ (q, Pending.writeNil) → False := by
    intro pre post x h hx
    rw [hrun] at h
    have : x ∈ [(q, Pending.writeNil)] := by rw [h]; simp
    exact hx (by simpa using this)
  cases hs with
  | request q' _ har => exact absurd har (hnew q')
  | read n _ h _ => exact (hone h (by simp)).elim
  | readEnd c _ h _ _ => exact (hone h (by simp)).elim
  | created _ h => exact (hone h (by simp)).elim
  | wrote n _ h _ _ _ => exact (hone h (by simp)).elim
  | saved _ h => exact (hone h (by simp)).elim
  | notCreated _ h => exact (hone h (by simp)).elim
  | saveFailed _ h => exact (hone h (by simp)).elim
  | @wroteNil q2 _ h =>
    rw [hrun] at h
    have h : q2 = q := by simpa using h
    subst h
    left
    have hset : setFile s'.disk (q2.file env) [] name = some [] := by
      unfold setFile
      exact if_pos hfile.symm
    exact ⟨rfl, hset⟩
  | @createFailed pre post q2 _ h =>
    rw [hrun] at h
    have : (q2, (Pending.writeNil : Pending F)) ∈ [(q, (Pending.writeNil : Pending F))] := by rw [h]; simp
    have h2 : q2 = q := by simpa using this
    subst h2
    right
    have e1 : s'.disk = s.disk := by rw [← hs']; rfl
    have e2 : s'.replies = s.replies := by rw [← hs']; rfl
    refine ⟨e1, ?_⟩
    rw [← e2]
    rfl
  | restart h =>
    have : s'.dead = false := by rw [← hs']; exact ha
    rw [this] at h; cases h

end

/-! The hypotheses are met: a slave in an empty directory, a region, and its history. -/

example : ∀ name, ¬ Readable ℚ (fun _ => none) name := by
  rintro name ⟨b, hb⟩
  cases hb

/-- A readable model. -/
example : Readable ℚ (fun _ => some (ascii "#binvox 1\ndim 1 1 1\ntranslate 0/1 0/1 0/1\nscale 1/1\ndata\n" ++ [1, 1]))
    (ascii "x") := by
  have h : (readModel (F := ℚ) (fun _ => some (ascii "#binvox 1\ndim 1 1 1\ntranslate 0/1 0/1 0/1\nscale 1/1\ndata\n" ++ [1, 1]))
    (ascii "x")).isSome = true := by decide +kernel
  exact Option.isSome_iff_exists.mp h

example : filename (fun n : Nat => fmtNat n) ⟨1, 2, 3, 4, 5, 6, 7, -8, 9⟩ = ascii "model-1-2-3-4-5-6-7--8-9.binvox" := by
  decide +kernel

/-- Numbers for an example: a float32 is a natural number, its own bits. -/
def exEnvQ : Env ℚ := ⟨fun q => fmtInt q.num, fun n => (n : ℚ), fun _ => 0, fun q => q.num.toNat, fun _ => ⟨0, 0, 0⟩⟩

def exRegion : VoxelRegion ℚ := ⟨1, 2, 3, 4, 5, 6, 7, -8, 9⟩

def exMeshQ : List (Tri (BinVOX.Vec ℚ)) := [⟨⟨0, 0, 0⟩, ⟨1, 0, 0⟩, ⟨0, 1, 5⟩⟩]

/-- The data of a request. -/
def exStl : Bytes := exEnvQ.stlFile exMeshQ

theorem exStl_ok : StlText.stlToMesh exEnvQ.f32 exEnvQ.parseF exStl = .ok exMeshQ := by decide +kernel

/-- A request to add is waiting for its file to be saved. -/
def exWaiting (region : VoxelRegion ℚ) (stl : Bytes) (mesh : List (Tri (BinVOX.Vec ℚ))) : State ℚ := ⟨fun _ => none, [(.add region stl, .save mesh)], [], false⟩

theorem exWaiting_apart {env : Env ℚ} {region : VoxelRegion ℚ} {stl : Bytes} {mesh : List (Tri (BinVOX.Vec ℚ))}
    (hok : StlText.stlToMesh env.f32 env.parseF stl = .ok mesh) : ReachApart env (start fun _ => none) (exWaiting region stl mesh) := by
  have h : handle env (start fun _ => none) (.add region stl) = exWaiting region stl mesh := by
    unfold handle handleRead
    dsimp only
    rw [hok]
    rfl
  exact .step .refl (h ▸ Step.request _ rfl .atOnce) (by unfold Apart; simp [exWaiting])

theorem exWaiting_reached {env : Env ℚ} {region : VoxelRegion ℚ} {stl : Bytes} {mesh : List (Tri (BinVOX.Vec ℚ))}
    (hok : StlText.stlToMesh env.f32 env.parseF stl = .ok mesh) : Reach env (start fun _ => none) (exWaiting region stl mesh) :=
  (exWaiting_apart hok).reach

/-- The file has been saved; then a request to subtract and one to get failed. -/
def exAskedOf (env : Env ℚ) (region : VoxelRegion ℚ) (stl : Bytes) (mesh : List (Tri (BinVOX.Vec ℚ))) (later : List (Request ℚ × Reply)) : State ℚ :=
  ⟨setFile (fun _ => none) (Request.file env (.add region stl)) (env.stlFile mesh), [], later ++ [(.add region stl, .ok [])], false⟩

theorem ReachApart.trans {env : Env ℚ} {s t u : State ℚ} (h : ReachApart env s t) (h2 : ReachApart env t u) : ReachApart env s u := by
  induction h2 with
  | refl => exact h
  | step _ hs ha ih => exact .step ih hs ha
  | killed _ ih => exact .killed ih

theorem exAskedOf_apart {env : Env ℚ} {region : VoxelRegion ℚ} {stl : Bytes} {mesh : List (Tri (BinVOX.Vec ℚ))}
    (hok : StlText.stlToMesh env.f32 env.parseF stl = .ok mesh) :
    ReachApart env (start fun _ => none) (exAskedOf env region stl mesh [(.get region, .error), (.sub region stl, .error)]) := by
  have h0 : ReachApart env (start fun _ => none) (exAskedOf env region stl mesh []) := by
    obtain ⟨s1, s2, a1, a2, a3, r1, r2, -⟩ := save_through (env := env) (s := exWaiting region stl mesh) (pre := []) (post := []) rfl rfl
    refine .step (.step (.step (exWaiting_apart hok) a1 ?_) a2 ?_) a3 List.nodup_nil
    · unfold Apart; rw [r1]; simp
    · unfold Apart; rw [r2]; simp
  have hn : ∀ l, readModel (F := ℚ) (exAskedOf env region stl mesh l).disk (filename env.fmtV region) = none := by
    intro l
    unfold readModel whole
    have e : (exAskedOf env region stl mesh l).disk (filename env.fmtV region) = some (env.stlFile mesh) := by
      unfold exAskedOf setFile Request.file Request.region
      dsimp only
      rw [if_pos rfl]
    rw [e]
    exact zero_unreadable (Or.inr (stlFile_cons mesh)) true
  have h1 : ∀ l, handle env (exAskedOf env region stl mesh l) (.sub region stl) = exAskedOf env region stl mesh ((.sub region stl, .error) :: l) := by
    intro l
    have := hn l
    unfold handle handleRead
    dsimp only
    unfold Request.file Request.region
    dsimp only
    rw [read_whole, this]
    rfl
  have h2 : ∀ l, handle env (exAskedOf env region stl mesh l) (.get region) = exAskedOf env region stl mesh ((.get region, .error) :: l) := by
    intro l
    have := hn l
    unfold handle handleRead
    dsimp only
    unfold Request.file Request.region
    dsimp only
    rw [read_whole, this]
    rfl
  have g1 : ReachApart env (start fun _ => none) (exAskedOf env region stl mesh [(.sub region stl, .error)]) :=
    .step h0 (h1 [] ▸ Step.request _ rfl .atOnce) List.nodup_nil
  exact .step g1 (h2 _ ▸ Step.request _ rfl .atOnce) List.nodup_nil

theorem exAskedOf_reached {env : Env ℚ} {region : VoxelRegion ℚ} {stl : Bytes} {mesh : List (Tri (BinVOX.Vec ℚ))}
    (hok : StlText.stlToMesh env.f32 env.parseF stl = .ok mesh) :
    Reach env (start fun _ => none) (exAskedOf env region stl mesh [(.get region, .error), (.sub region stl, .error)]) :=
  (exAskedOf_apart hok).reach

def exAsked : State ℚ := exAskedOf exEnvQ exRegion exStl exMeshQ [(.get exRegion, .error), (.sub exRegion exStl, .error)]

theorem exAsked_reached : Reach exEnvQ (start fun _ => none) exAsked := exAskedOf_reached exStl_ok

theorem exAsked_disk : exAsked.disk (filename exEnvQ.fmtV exRegion) = some (exEnvQ.stlFile exMeshQ) := by
  unfold exAsked exAskedOf setFile Request.file Request.region
  dsimp only
  rw [if_pos rfl]

/-- `sub_never_succeeds`, `slave_keeps_no_model`, `file_holds_one_mesh` and `saved_file_parses` on this history. -/
example : (∃ r, (Request.sub exRegion exStl, r) ∈ exAsked.replies) ∧ (∀ r, (Request.sub exRegion exStl, r) ∈ exAsked.replies → r = .error) :=
  ⟨⟨.error, .tail _ (.head _)⟩, fun _ h => sub_never_succeeds exAsked_reached h⟩

theorem none_readable : ∀ name, ¬ Readable ℚ (fun _ => none) name := by
  rintro name ⟨b, hb⟩
  cases hb

theorem none_magic : ∀ name b, (fun _ => none : Bytes → Option Bytes) name = some b → ¬ ascii "#binvox 1\n" <+: b := fun _ _ h => nomatch h

example := slave_keeps_no_model (env := exEnvQ) none_magic exAsked_reached

example := file_holds_one_mesh (exAskedOf_apart exStl_ok) exAsked_disk

example := file_holds_pieces exAsked_reached exAsked_disk

/-- `added_file_exact`: the last step of the request to add. -/
theorem exAdded {env : Env ℚ} {region : VoxelRegion ℚ} {stl : Bytes} {mesh : List (Tri (BinVOX.Vec ℚ))}
    (hok : StlText.stlToMesh env.f32 env.parseF stl = .ok mesh) :
    ∃ s t : State ℚ, ReachApart env (start fun _ => none) s ∧ Step env s t ∧ t.replies = (.add region stl, .ok []) :: s.replies ∧
      ∃ mesh', StlText.stlToMesh env.f32 env.parseF stl = .ok mesh' ∧ t.disk (filename env.fmtV region) = some (env.stlFile mesh') := by
  obtain ⟨s1, s2, a1, a2, a3, r1, r2, r3⟩ := save_through (env := env) (s := exWaiting region stl mesh) (pre := []) (post := []) rfl rfl
  have h2 : ReachApart env (start fun _ => none) s2 := by
    refine .step (.step (exWaiting_apart hok) a1 ?_) a2 ?_
    · unfold Apart; rw [r1]; simp
    · unfold Apart; rw [r2]; simp
  exact ⟨s2, _, h2, a3, by rw [r3], (added_file_exact h2 a3 (by rw [r3])).2⟩

example := exAdded (region := exRegion) exStl_ok

/-- Another mesh for the same region. -/
def exMesh2 : List (Tri (BinVOX.Vec ℚ)) := [⟨⟨7, 0, 0⟩, ⟨1, 0, 0⟩, ⟨0, 1, 5⟩⟩, ⟨⟨0, 0, 0⟩, ⟨1, 9, 0⟩, ⟨0, 1, 5⟩⟩]

theorem exStl2_ok : StlText.stlToMesh exEnvQ.f32 exEnvQ.parseF (exEnvQ.stlFile exMesh2) = .ok exMesh2 := by decide +kernel

/-- `overlapping_adds_mix`: two meshes with one and two triangles are both reported as added; the file they leave has no
    triangle at all. -/
example : ∃ (u : State ℚ) (b : Bytes), Reach exEnvQ (start fun _ => none) u ∧
    u.replies = [(.add exRegion exStl, .ok []), (.add exRegion (exEnvQ.stlFile exMesh2), .ok [])] ∧
    u.disk (filename exEnvQ.fmtV exRegion) = some b ∧ StlText.stlToMesh exEnvQ.f32 exEnvQ.parseF b = .ok [] := by
  obtain ⟨u, h, -, -, hr, hd⟩ := overlapping_adds_mix (env := exEnvQ) (s := start fun _ => none) (region := exRegion) rfl exStl2_ok exStl_ok
    (none_readable _)
  refine ⟨u, _, h, hr, by rw [hd, setFile_self], ?_⟩
  decide +kernel

/-- `overlapping_get_mixes`: the old file is a model with one byte too many. -/
def exOld : Bytes := ascii "#binvox 1\ndim 9 9 9\ntranslate 0/1 0/1 0/1 \nscale 1/1\ndata\n" ++ (List.replicate 38 [0, 1]).flatten ++ [0]

/-- The new file is as long as the old one without this byte. -/
theorem exMixes : ∃ u : State ℚ, Reach exEnvQ (start fun _ => some exOld) u ∧
    u.replies = [(.get exRegion, .ok []), (.add exRegion exStl, .ok [])] := by
  have hr : (BinVOX.Read (F := ℚ) (some ⟨exOld.take 134 ++ (exEnvQ.stlFile exMeshQ).drop 134, true⟩)
      ⟨0, 0, 0, 0, 0, 0⟩).isSome = true := by decide +kernel
  obtain ⟨m, hm⟩ := Option.isSome_iff_exists.mp hr
  have hn : ¬ Readable ℚ (fun _ => some exOld) (filename exEnvQ.fmtV exRegion) := by
    rintro ⟨m, hm⟩
    have : (readModel (F := ℚ) (fun _ => some exOld) []).isSome = false := by decide +kernel
    have h2 : readModel (F := ℚ) (fun _ => some exOld) [] = some m := hm
    rw [h2] at this
    cases this
  obtain ⟨u, h, -, -, h2⟩ := overlapping_get_mixes (env := exEnvQ) (s := start fun _ => some exOld) (region := exRegion)
    rfl exStl_ok rfl hn 134 (by decide +kernel) (by decide +kernel) hm
  exact ⟨u, h, h2⟩

example := saved_file_parses (env := exEnvQ) (stl := exStl) (mesh := exMeshQ) (by
    intro m hm
    show (((m : Nat) : ℚ).num.toNat < 4294967296) ∧ (((((m : Nat) : ℚ).num.toNat : Nat)) : ℚ) = m
    rw [Rat.num_natCast, Int.toNat_natCast]
    exact ⟨hm, rfl⟩) (by decide +kernel) exStl_ok

example := add_overwrites (env := exEnvQ) (s := start fun _ => none) (region := exRegion) rfl exStl_ok (none_readable _)

/-- `slave_dies_only_of_data`: data with a vertex too many. -/
def exBad : Bytes := List.replicate 84 10 ++ ascii "vertex 1 2 3"

example : ∃ t : State ℚ, Step exEnvQ exAsked t ∧ t.dead = true ∧
    ∃ region stl, t = handle exEnvQ exAsked (.add region stl) ∧ StlText.stlToMesh exEnvQ.f32 exEnvQ.parseF stl = .panic := by
  have hb : StlText.stlToMesh exEnvQ.f32 exEnvQ.parseF exBad = .panic := by decide +kernel
  have hd : (handle exEnvQ exAsked (.add exRegion exBad)).dead = true := by
    unfold handle handleRead
    dsimp only
    rw [hb]
    rfl
  exact ⟨_, .request _ rfl .atOnce, hd, slave_dies_only_of_data none_magic exAsked_reached (.request _ rfl .atOnce) rfl hd⟩

/-- A disk with a readable model in every file. -/
def exReadable : Bytes → Option Bytes := fun _ => some (ascii "#binvox 1\ndim 1 1 1\ntranslate 0/1 0/1 0/1\nscale 1/1\ndata\n" ++ [1, 1])

theorem exReadable_readable (name : Bytes) : Readable ℚ exReadable name := by
  have h : (readModel (F := ℚ) exReadable (ascii "x")).isSome = true := by decide +kernel
  exact Option.isSome_iff_exists.mp h

/-- `get_readable` and `get_returns_nothing`: the reply to a request for a model that is there. -/
example : ∃ s : State ℚ, Reach exEnvQ (start exReadable) s ∧ s.replies = [(.get exRegion, .ok [])] ∧
    ∀ b, (Request.get exRegion, Reply.ok b) ∈ s.replies → b = [] := by
  have h := get_readable (env := exEnvQ) (s := start exReadable) (exReadable_readable (filename exEnvQ.fmtV exRegion))
  have hr : Reach exEnvQ (start exReadable) (handle exEnvQ (start exReadable) (.get exRegion)) := .step .refl (.request _ rfl .atOnce)
  exact ⟨_, hr, by rw [h]; rfl, fun b hb => get_returns_nothing hr hb⟩

/-- `readable_change_fatal`: the slave dies when the file can be created. -/
theorem exFatal {env : Env ℚ} {region : VoxelRegion ℚ} {stl : Bytes} {mesh : List (Tri (BinVOX.Vec ℚ))}
    (hok : StlText.stlToMesh env.f32 env.parseF stl = .ok mesh) :
    ∃ t : State ℚ, Step env (handle env (start exReadable) (.add region stl)) t ∧
    ((t.dead = true ∧ t.disk (filename env.fmtV region) = some []) ∨
      (t.disk = exReadable ∧ t.replies = [(.add region stl, .error)])) := by
  have hp : handle env (start exReadable) (.add region stl) = (start exReadable : State ℚ).later (.add region stl) .writeNil := by
    obtain ⟨b, hb⟩ := exReadable_readable (filename env.fmtV region)
    unfold handle handleRead
    dsimp only
    rw [hok]
    dsimp only
    have : readModel (F := ℚ) (start exReadable : State ℚ).disk (Request.file env (.add region stl)) = some b := hb
    rw [read_whole, this]
  have hs : Step env (handle env (start exReadable) (.add region stl))
      { (start exReadable : State ℚ).later (.add region stl) .writeNil with
        disk := setFile exReadable (Request.file env (.add region stl)) [] }.die := by
    rw [hp]
    exact Step.wroteNil (q := .add region stl) rfl (.head _)
  refine ⟨_, hs, readable_change_fatal (.inl rfl) rfl rfl hok (exReadable_readable _) hs ?_⟩
  intro q' h
  have h2 := congrFun (arrive_disk h) (filename env.fmtV region)
  unfold State.die handle at h2
  dsimp only at h2
  rw [handleRead_disk] at h2
  unfold start at h2
  dsimp only at h2
  have e : setFile exReadable (Request.file env (.add region stl)) [] (filename env.fmtV region) = some [] := by
    unfold setFile Request.file Request.region
    dsimp only
    rw [if_pos rfl]
  have e : (some [] : Option Bytes) = exReadable (filename env.fmtV region) := by rw [e] at h2; exact h2
  exact absurd e (by unfold exReadable; exact fun e => List.cons_ne_nil _ _ (List.append_eq_nil_iff.mp (Option.some.inj e).symm).2)

example := exFatal (region := exRegion) exStl_ok

/-- `filename_injective` for regions given by natural numbers. -/
example {r r' : VoxelRegion Nat} (h : filename (fun n : Nat => fmtNat n) r = filename (fun n : Nat => fmtNat n) r') : r = r' := by
  have nod : ∀ n : Nat, ∀ c ∈ fmtNat n, isDigit c = true := fun n => fmtNat_digits n
  refine filename_injective (fun n => ⟨fmtNat_ne_nil n, ?_, ?_, ?_⟩) ?_ h
  · intro p q e
    exact absurd (nod n 45 (by rw [e]; simp)) (by decide)
  · intro p e
    exact absurd (nod n 45 (by rw [e]; simp)) (by decide)
  · intro p e
    exact absurd (nod n 101 (by rw [e]; simp)) (by decide)
  · intro a b e
    have := congrArg digitsVal e
    rwa [fmtNat_val, fmtNat_val] at this

end Slave
end StlDice
