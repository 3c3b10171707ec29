import Verif.Lemmas.Chan

/-! # C12: the run-length producer and the writer -/

namespace StlDice

/-- The sequential description `encodeRuns` is what the producer goroutine sends. -/
theorem binEncoder_rest (m : WhiteVoxelMap) (ks : List Key) (v : UInt8) (n : Nat)
    (sent : List (UInt8 × Nat)) :
    (let s := ks.foldl (encodeStep m) ⟨v, n, sent⟩
     if s.count > 0 then s.sent ++ [(s.value, s.count)] else s.sent) =
      sent ++ (binEncoder m).rest (v, n) ks := by
  induction ks generalizing v n sent with
  | nil =>
    simp only [List.foldl_nil, Producer.rest, binEncoder]
    split <;> simp <;> omega
  | cons k ks ih =>
    rw [List.foldl_cons, Producer.rest]
    have hstep : encodeStep m ⟨v, n, sent⟩ k =
        ⟨((binEncoder m).step (v, n) k).1.1, ((binEncoder m).step (v, n) k).1.2,
          sent ++ ((binEncoder m).step (v, n) k).2.toList⟩ := by
      unfold encodeStep binEncoder
      dsimp only
      generalize (if GoMap.has m k = true then (1 : UInt8) else 0) = nv
      by_cases h : nv = v
      · simp [h]
      · by_cases hn : n > 0
        · simp [h, hn]
        · simp [h, hn]
    rw [hstep]
    have := ih ((binEncoder m).step (v, n) k).1.1 ((binEncoder m).step (v, n) k).1.2
      (sent ++ ((binEncoder m).step (v, n) k).2.toList)
    simp only at this ⊢
    rw [this, List.append_assoc]

/-- C12 (safety): in every reachable state of every schedule the writer has received a prefix of the
    runs, in order and without loss or duplication; when its loop ends it has all of them and the
    channel is closed. -/
theorem encode_channel_safe (m : WhiteVoxelMap) (r : Region) (cap : Nat)
    (c : PC (UInt8 × Nat) Key (UInt8 × Nat))
    (h : PCReach (binEncoder m) cap (PC.init (0, 0) (cells r)) c) :
    c.got <+: encodeRuns m r ∧ c.buf.length ≤ cap ∧
      (c.done = true → c.got = encodeRuns m r ∧ c.buf = [] ∧ c.phase = .closed) := by
  have e : (binEncoder m).rest (0, 0) (cells r) = encodeRuns m r := by
    have := binEncoder_rest m (cells r) 0 0 []
    rw [List.nil_append] at this
    exact this.symm
  obtain ⟨h1, h2, h3⟩ := h.inv
  rw [e] at h1
  refine ⟨⟨c.buf ++ c.future (binEncoder m), by rw [← h1, List.append_assoc]⟩, h2, ?_⟩
  intro hd
  obtain ⟨hb, hp⟩ := h3 hd
  rw [hb] at h1
  simp only [PC.future, hp, List.append_nil] at h1
  exact ⟨h1, hb, hp⟩

/-- C12 (no deadlock): with a buffered channel no reachable state is stuck before the writer is done. -/
theorem encode_channel_progress (m : WhiteVoxelMap) (cap : Nat) (hcap : 0 < cap)
    (c : PC (UInt8 × Nat) Key (UInt8 × Nat)) (hnd : c.done = false) :
    ∃ c', PCStep (binEncoder m) cap c c' := PC.progress hcap hnd

/-- C12 (termination): every schedule ends: at most `3 * cells + 5` steps in all. -/
theorem encode_channel_terminates (m : WhiteVoxelMap) (r : Region) (cap : Nat) (n : Nat)
    (path : Nat → PC (UInt8 × Nat) Key (UInt8 × Nat)) (h0 : path 0 = PC.init (0, 0) (cells r))
    (hs : ∀ i < n, PCStep (binEncoder m) cap (path i) (path (i + 1))) :
    n ≤ 3 * (cells r).length + 5 := by
  have hm : ∀ i ≤ n, (path i).measure + i ≤ (path 0).measure := by
    intro i hi
    induction i with
    | zero => simp
    | succ i ih =>
      have := (hs i (by omega)).decreases
      have := ih (by omega)
      omega
  have := hm n (Nat.le_refl n)
  rw [h0] at this
  have e : (PC.init (O := UInt8 × Nat) ((0 : UInt8), (0 : Nat)) (cells r)).measure =
      3 * (cells r).length + 5 := by simp [PC.init, PC.measure]
  omega

/-- C12 (outcome): every schedule that cannot continue has handed the writer exactly the runs the
    sequential model `BinVOX.write` uses. -/
theorem encode_channel_outcome (m : WhiteVoxelMap) (r : Region) (cap : Nat) (hcap : 0 < cap)
    (c : PC (UInt8 × Nat) Key (UInt8 × Nat))
    (h : PCReach (binEncoder m) cap (PC.init (0, 0) (cells r)) c)
    (hstuck : ¬ ∃ c', PCStep (binEncoder m) cap c c') : c.done = true ∧ c.got = encodeRuns m r := by
  have hd : c.done = true := by
    by_contra hnd
    exact hstuck (encode_channel_progress m cap hcap c (by simpa using hnd))
  exact ⟨hd, ((encode_channel_safe m r cap c h).2.2 hd).1⟩

/-- A concrete reachable state, two steps into a schedule over a 1×2×1 region. -/
example : ∃ c, PCReach (binEncoder [(⟨0, 1, 0⟩, ())]) 100 (PC.init (0, 0) (cells ⟨0,0,0,1,2,1⟩)) c ∧
    c.buf = [(0, 1)] := by
  refine ⟨_, .tail (.tail (.refl _) (.work (i := ⟨0,0,0⟩) (is := [⟨0,1,0⟩]) (s' := (0, 1)) rfl rfl rfl))
    (.workSend (i := ⟨0,1,0⟩) (is := []) (s' := (1, 1)) (o := (0, 1)) rfl rfl rfl (by decide)), rfl⟩

/-- A whole run, and the theorems above on it: an empty and a filled cell are sent as two runs. -/
theorem exChannelRun : PCReach (binEncoder [(⟨0, 1, 0⟩, ())]) 100 (PC.init (0, 0) (cells ⟨0, 0, 0, 1, 2, 1⟩))
    ⟨[], (1, 1), .closed, [], [(0, 1), (1, 1)], true⟩ := by
  refine .tail (.tail (.tail (.tail (.tail (.tail (.tail (.refl _)
    (.work (i := ⟨0, 0, 0⟩) (is := [⟨0, 1, 0⟩]) (s' := (0, 1)) rfl rfl rfl))
    (.workSend (i := ⟨0, 1, 0⟩) (is := []) (s' := (1, 1)) (o := (0, 1)) rfl rfl rfl (by decide)))
    (.recv (o := (0, 1)) (os := []) rfl rfl))
    (.finishSend (o := (1, 1)) rfl rfl rfl (by decide)))
    (.recv (o := (1, 1)) (os := []) rfl rfl))
    (.close rfl))
    (.recvEnd rfl rfl rfl)

example := encode_channel_safe _ _ 100 _ exChannelRun
example := encode_channel_progress [(⟨0, 1, 0⟩, ())] 1 (by decide) (PC.init (0, 0) (cells ⟨0, 0, 0, 1, 2, 1⟩)) rfl
example := encode_channel_terminates [(⟨0, 1, 0⟩, ())] ⟨0, 0, 0, 1, 2, 1⟩ 1 1
  (fun i => if i = 0 then PC.init (0, 0) (cells ⟨0, 0, 0, 1, 2, 1⟩) else ⟨[⟨0, 1, 0⟩], (0, 1), .looping, [], [], false⟩) rfl (by
    intro i hi
    have : i = 0 := by omega
    subst this
    exact .work (c := PC.init (0, 0) (cells ⟨0, 0, 0, 1, 2, 1⟩)) (i := ⟨0, 0, 0⟩) (is := [⟨0, 1, 0⟩]) (s' := (0, 1)) rfl rfl rfl)
example := encode_channel_outcome _ _ 100 (by decide) _ exChannelRun (by
  rintro ⟨c', h⟩
  cases h with
  | work hp _ _ => cases hp
  | workSend hp _ _ _ => cases hp
  | finish hp _ _ => cases hp
  | finishSend hp _ _ _ => cases hp
  | close hp => cases hp
  | recv hd _ => cases hd
  | recvEnd hd _ _ => cases hd)

end StlDice
