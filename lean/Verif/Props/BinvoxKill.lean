import Verif.Model.BinvoxKill
import Verif.Props.BinvoxRun

/-! # C133: the script of binvox-dice killed and run again -/

namespace StlDice
namespace Cmd
open Spec BinVOX

section
variable {F : Type} [GoFloat F] [FloatText F] {tool : Bytes → List Bytes → Option Bytes} {lib : GL F}

theorem killed_append {l₁ l₂ : List (List Bytes)} : ∀ {d d'' : Disk}, BinvoxKilled tool lib d (l₁ ++ l₂) d'' →
    BinvoxKilled tool lib d l₁ d'' ∨ ∃ d', ScriptRun (BinvoxStep tool lib) d l₁ d' ∧ BinvoxKilled tool lib d' l₂ d'' := by
  induction l₁ with
  | nil => intro d d'' h; exact .inr ⟨d, .nil, h⟩
  | cons w l₁ ih =>
    intro d d'' h
    cases h with
    | now => exact .inl .now
    | torn h => exact .inl (.torn h)
    | line h hr =>
      rcases ih hr with h1 | ⟨d', h1, h2⟩
      · exact .inl (.line h h1)
      · exact .inr ⟨d', .cons h h1, h2⟩

theorem torn_not {d d' : Disk} {w : Bytes} {ws : List Bytes} (hw : w ≠ ascii "binvox") (h : BinvoxTorn tool d (w :: ws) d') : False := by
  generalize he : w :: ws = l at h
  cases h with
  | torn => injection he with he _; exact hw he

theorem killed_comments : ∀ (hs : List Bytes) {ls : List (List Bytes)} {d d' : Disk}, (∀ h ∈ hs, h.head? = some 35) →
    BinvoxKilled tool lib d (hs.map splitSp ++ ls) d' → BinvoxKilled tool lib d ls d' := by
  intro hs
  induction hs with
  | nil => intro ls d d' _ h; exact h
  | cons h hs ih =>
    intro ls d d' hh hk
    obtain ⟨w, ws, e1, e2⟩ : ∃ w ws, splitSp h = w :: ws ∧ w.head? = some 35 := by
      have := hh h (by simp)
      cases h with
      | nil => cases this
      | cons c s => injection this with this; subst this; exact splitSp_hash s
    rw [List.map_cons, List.cons_append, e1] at hk
    cases hk with
    | now => exact .now
    | torn h => exact (torn_not (by rintro rfl; exact absurd e2 (by decide)) h).elim
    | line hl hr =>
      rw [(step_comment e2).mp hl] at hr
      exact ih (fun h hm => hh h (by simp [hm])) hr

/-- Nothing of `r`, or a part of it. -/
def PartOf (r : Option Bytes) (x : List Bytes) : Prop := x = [] ∨ ∃ c t, r = some c ∧ x = [t] ∧ t <+: c

theorem partOf_toList (r : Option Bytes) : PartOf r r.toList := by
  cases r with
  | none => exact .inl rfl
  | some c => exact .inr ⟨c, c, rfl, rfl, List.prefix_refl _⟩

theorem step_torn {n1 n2 n3 n4 n5 n6 stem : Bytes} {l : List Bytes} {d d' : Disk} (hl : Files d stem l)
    (h : BinvoxTorn tool d [ascii "binvox", ascii "-pb", ascii "-d", ascii "1024", ascii "-bb", n1, n2, n3, n4, n5, n6, stem ++ ascii ".stl"] d') :
    (∃ x, PartOf ((d (stem ++ ascii ".stl")).bind fun f => tool f [n1, n2, n3, n4, n5, n6]) x ∧ Files d' stem (l ++ x)) ∧
    ∀ m, (∀ j, m ≠ numbered stem j) → d' m = d m := by
  generalize he : [ascii "binvox", ascii "-pb", ascii "-d", ascii "1024", ascii "-bb", n1, n2, n3, n4, n5, n6, stem ++ ascii ".stl"] = ws at h
  cases h with
  | @torn _ _ _ _ _ _ stem' c t k h hk hj ht =>
    simp only [List.cons.injEq, and_true, true_and] at he
    obtain ⟨rfl, rfl, rfl, rfl, rfl, rfl, he⟩ := he
    have := List.append_cancel_right he
    subst this
    have hkl : k = l.length := by
      rw [hl k, List.getElem?_eq_none_iff] at hk
      by_contra hne
      exact hj l.length (by omega) (by rw [hl]; exact List.getElem?_eq_none (Nat.le_refl _))
    subst hkl
    refine ⟨⟨[t], .inr ⟨c, t, h, rfl, ht⟩, ?_⟩, fun m hm => put_other _ _ (hm _)⟩
    intro j
    by_cases hjl : j = l.length
    · subst hjl
      rw [put_self, List.getElem?_append_right (Nat.le_refl _), Nat.sub_self]
      rfl
    · rw [put_other _ _ (fun e => hjl (numbered_inj e)), hl j]
      by_cases hlt : j < l.length
      · rw [List.getElem?_append_left hlt]
      · rw [List.getElem?_eq_none (by omega), List.getElem?_eq_none (by simp; omega)]

/-- The binvox lines of one box, killed. -/
theorem killed_tools {args : List Bytes} (g : GoodNames args) {n1 n2 n3 n4 n5 n6 : Bytes} {l : Bytes → List Bytes} : ∀ (as : List Bytes) {d d' : Disk},
    as.Nodup → (∀ a ∈ as, a ∈ args) → (∀ a ∈ as, Files d (trimStl a) (l a)) →
    BinvoxKilled tool lib d (as.map (toolLine [n1, n2, n3, n4, n5, n6])) d' →
    (∀ a ∈ as, ∃ x, PartOf ((d a).bind fun f => tool f [n1, n2, n3, n4, n5, n6]) x ∧ Files d' (trimStl a) (l a ++ x)) ∧
    ∀ m, (∀ a ∈ as, ∀ j, m ≠ numbered (trimStl a) j) → d' m = d m := by
  intro as
  have none : ∀ {as : List Bytes} {d : Disk}, (∀ a ∈ as, Files d (trimStl a) (l a)) →
      ∀ a ∈ as, ∃ x, PartOf ((d a).bind fun f => tool f [n1, n2, n3, n4, n5, n6]) x ∧ Files d (trimStl a) (l a ++ x) :=
    fun hf a ha => ⟨[], .inl rfl, by rw [List.append_nil]; exact hf a ha⟩
  induction as with
  | nil =>
    intro d d' _ _ hf h
    cases h with
    | now => exact ⟨none hf, fun _ _ => rfl⟩
  | cons a as ih =>
    intro d d'' hnd hsub hf h
    rw [List.nodup_cons] at hnd
    obtain ⟨s, hs⟩ := g.stl a (hsub a (by simp))
    have hts : trimStl a = s := by rw [hs]; exact (trimStl_spec s).1
    have hne : ∀ b ∈ as, b ≠ a := fun b hb e => hnd.1 (e ▸ hb)
    have hfa : Files d s (l a) := hts ▸ hf a (by simp)
    -- what a line of `a` leaves alone
    have keep : ∀ {d1 : Disk}, (∀ m, (∀ j, m ≠ numbered s j) → d1 m = d m) →
        (∀ b ∈ as, Files d1 (trimStl b) (l b)) ∧ ∀ b ∈ args, d1 b = d b := by
      intro d1 h2
      refine ⟨?_, ?_⟩
      · intro b hb j
        rw [h2 _ fun i => hts ▸ numbered_apart g (hsub b (by simp [hb])) (hsub a (by simp)) (hne b hb) j i]
        exact hf b (by simp [hb]) j
      · intro b hb
        obtain ⟨t, rfl⟩ := g.stl b hb
        exact h2 _ fun j => stl_ne_numbered t s j
    cases h with
    | now => exact ⟨none hf, fun _ _ => rfl⟩
    | torn h =>
      have h : BinvoxTorn tool d [ascii "binvox", ascii "-pb", ascii "-d", ascii "1024", ascii "-bb", n1, n2, n3, n4, n5, n6, s ++ ascii ".stl"] d'' := by
        rw [← hs]; exact h
      obtain ⟨h1, h2⟩ := step_torn hfa h
      refine ⟨?_, fun m hm => h2 m fun j => hts ▸ hm a (by simp) j⟩
      intro b hb
      rcases List.mem_cons.mp hb with rfl | hb
      · obtain ⟨x, hx, hf⟩ := h1
        rw [← hs] at hx
        rw [hts]
        exact ⟨x, hx, hf⟩
      · exact ⟨[], .inl rfl, by rw [List.append_nil]; exact (keep h2).1 b hb⟩
    | @line _ _ d' _ _ hl hr =>
      have hl : BinvoxStep tool lib d [ascii "binvox", ascii "-pb", ascii "-d", ascii "1024", ascii "-bb", n1, n2, n3, n4, n5, n6, s ++ ascii ".stl"] d' := by
        rw [← hs]; exact hl
      obtain ⟨h1, h2⟩ := step_binvox hfa hl
      obtain ⟨i1, i2⟩ := ih hnd.2 (fun b hb => hsub b (by simp [hb])) (keep h2).1 hr
      refine ⟨?_, ?_⟩
      · intro b hb
        rcases List.mem_cons.mp hb with rfl | hb
        · refine ⟨_, partOf_toList _, ?_⟩
          intro j
          rw [i2 _ fun c hc i => numbered_apart g (hsub b (by simp)) (hsub c (by simp [hc])) (hne c hc).symm j i, hts, h1 j, hs]
        · have := i1 b hb
          rw [(keep h2).2 b (hsub b (by simp [hb]))] at this
          exact this
      · intro m hm
        rw [i2 m fun b hb => hm b (by simp [hb]), h2 m fun j => hts ▸ hm a (by simp) j]

/-- **C133 (what a killed run leaves).** If the numbered binvox files of argument `a` are at the start `left a`, then behind
    them are what binvox made for the first boxes, the same number of boxes for every argument, and for the next box,
    for each argument, nothing, or the file or a part of it; and besides these and `out`, `out_1`, … no file changes. -/
theorem binvox_killed [LawfulFloatText F] {quote : Bytes → Bytes} {fl : BinvoxDiceFlags} {mbb : Box F} {out : Bytes}
    (g : GoodNames fl.args) (hq : (10 : UInt8) ∉ quote fl.mbb) (ho : binvoxScript quote fl mbb = some out)
    {d d' : Disk} {left : Bytes → List Bytes} (hleft : ∀ a ∈ fl.args, ∀ j, d (boxBin a j) = (left a)[j]?)
    (h : BinvoxKilled tool lib d (shellWords out) d') :
    (∃ k, k ≤ boxCount fl ∧ ∀ a ∈ fl.args, ∃ x : List Bytes,
      (x = [] ∨ k < boxCount fl ∧ ∃ c t, made tool fl mbb d a k = some c ∧ x = [t] ∧ t <+: c) ∧
      ∀ j, d' (boxBin a j) = (left a ++ (List.range k).filterMap (made tool fl mbb d a) ++ x)[j]?) ∧
    ∀ m, m ≠ [] → (∀ n < boxCount fl, m ≠ boxStl n) → (∀ a ∈ fl.args, ∀ j, m ≠ boxBin a j) → d' m = d m := by
  have st : Steps tool lib (BinvoxStep tool lib) := ⟨fun h => h, fun h => .comment h⟩
  obtain ⟨hs, hh, hw⟩ := binvox_shell g.nonempty g.plain hq ho
  rw [hw] at h
  replace h := killed_comments hs hh h
  unfold bodyLines at h
  generalize hN : boxCount fl = N at h ⊢
  clear hN ho hq hw hh
  induction N generalizing d' with
  | zero =>
    cases h with
    | now => exact ⟨⟨0, Nat.le_refl _, fun a ha => ⟨[], .inl rfl, fun j => by simpa using hleft a ha j⟩⟩, fun _ _ _ _ => rfl⟩
  | succ N ih =>
    rw [List.range_succ, List.flatMap_append, List.flatMap_cons, List.flatMap_nil, List.append_nil] at h
    rcases killed_append h with h | ⟨d1, hr, hb⟩
    · obtain ⟨⟨k, hk, i1⟩, i2⟩ := ih h
      refine ⟨⟨k, by omega, ?_⟩, fun m h0 hm hm' => i2 m h0 (fun n hn => hm n (by omega)) hm'⟩
      intro a ha
      obtain ⟨x, hx, hf⟩ := i1 a ha
      refine ⟨x, ?_, hf⟩
      rcases hx with hx | ⟨hk, hx⟩
      · exact .inl hx
      · exact .inr ⟨by omega, hx⟩
    · obtain ⟨-, i2, i3⟩ := body_run st g hleft hr
      have hd1 : ∀ a ∈ fl.args, d1 a = d a := by
        intro a ha
        refine i3 a (g.plain a ha).2.2.1 (fun n _ => g.outs a ha n) ?_
        intro b _ j
        obtain ⟨s, rfl⟩ := g.stl a ha
        exact stl_ne_numbered s _ j
      have done : ∀ {D : Disk}, (∀ a ∈ fl.args, ∃ x, PartOf (made tool fl mbb d a N) x ∧
            Files D (trimStl a) (left a ++ (List.range N).filterMap (made tool fl mbb d a) ++ x)) →
          (∀ m, m ≠ [] → (∀ n < N + 1, m ≠ boxStl n) → (∀ a ∈ fl.args, ∀ j, m ≠ boxBin a j) → D m = d1 m) →
          (∃ k, k ≤ N + 1 ∧ ∀ a ∈ fl.args, ∃ x : List Bytes,
            (x = [] ∨ k < N + 1 ∧ ∃ c t, made tool fl mbb d a k = some c ∧ x = [t] ∧ t <+: c) ∧
            ∀ j, D (boxBin a j) = (left a ++ (List.range k).filterMap (made tool fl mbb d a) ++ x)[j]?) ∧
          ∀ m, m ≠ [] → (∀ n < N + 1, m ≠ boxStl n) → (∀ a ∈ fl.args, ∀ j, m ≠ boxBin a j) → D m = d m := by
        intro D h1 h2
        refine ⟨⟨N, by omega, ?_⟩, fun m h0 hm hm' => by rw [h2 m h0 hm hm', i3 m h0 (fun n hn => hm n (by omega)) hm']⟩
        intro a ha
        obtain ⟨x, hx, hf⟩ := h1 a ha
        refine ⟨x, ?_, hf⟩
        rcases hx with hx | hx
        · exact .inl hx
        · exact .inr ⟨by omega, hx⟩
      have same : ∀ a ∈ fl.args, ∃ x, PartOf (made tool fl mbb d a N) x ∧
          Files d1 (trimStl a) (left a ++ (List.range N).filterMap (made tool fl mbb d a) ++ x) :=
        fun a ha => ⟨[], .inl rfl, fun j => by rw [List.append_nil]; exact i2 a ha j⟩
      obtain ⟨n1, n2, n3, n4, n5, n6, hn⟩ := boxNumbers_six mbb (axisBoxes fl.factor fl.subX) (axisBoxes fl.factor fl.subY) (axisBoxes fl.factor fl.subZ) N
      have hmade : ∀ a ∈ fl.args, (d1 a).bind (fun f => tool f [n1, n2, n3, n4, n5, n6]) = made tool fl mbb d a N := by
        intro a ha
        rw [hd1 a ha, ← hn]
        rfl
      rw [hn] at hb
      unfold boxLines at hb
      rw [List.cons_append] at hb
      cases hb with
      | now => exact done same fun _ _ _ _ => rfl
      | torn h => exact (torn_not (by decide) h).elim
      | line hbl hb =>
        rw [step_blank.mp hbl] at hb
        rcases killed_append hb with hb | ⟨D, hr, hv⟩
        · obtain ⟨t1, t2⟩ := killed_tools g (l := fun a => left a ++ (List.range N).filterMap (made tool fl mbb d a))
            fl.args g.nodup (fun _ h => h) (fun a ha j => i2 a ha j) hb
          refine done (fun a ha => ?_) fun m _ _ hm' => t2 m hm'
          obtain ⟨x, hx, hf⟩ := t1 a ha
          rw [hmade a ha] at hx
          exact ⟨x, hx, hf⟩
        · obtain ⟨t1, t2⟩ := run_tools g (l := fun a => left a ++ (List.range N).filterMap (made tool fl mbb d a))
            fl.args g.nodup (fun _ h => h) (fun a ha j => i2 a ha j) hr
          have hD : ∀ a ∈ fl.args, ∃ x, PartOf (made tool fl mbb d a N) x ∧
              Files D (trimStl a) (left a ++ (List.range N).filterMap (made tool fl mbb d a) ++ x) := by
            intro a ha
            refine ⟨_, partOf_toList _, ?_⟩
            rw [← hmade a ha]
            exact t1 a ha
          cases hv with
          | now => exact done hD fun m _ _ hm' => t2 m hm'
          | torn h => exact (torn_not (by decide) h).elim
          | line hv hnil =>
            cases hnil with
            | now =>
            obtain ⟨e, hv'⟩ := step_voxcut hv
            have ht : ∀ m, m ≠ [] → m ≠ boxStl N → d' m = D m := by
              intro m h0 hm
              exact (voxcut_touches hv').1 m h0 h0 hm
            refine done ?_ fun m h0 hm hm' => by rw [ht m h0 (hm N (by omega)), t2 m hm']
            intro a ha
            obtain ⟨x, hx, hf⟩ := hD a ha
            refine ⟨x, hx, ?_⟩
            intro j
            rw [ht, hf j]
            · unfold numbered; intro h; exact absurd (List.append_eq_nil_iff.mp h).2 (by decide)
            · exact fun h => stl_ne_numbered (ascii "out" ++ nth N) (trimStl a) j h.symm

/-- **C133 (run again).** Names without surprises, no numbered binvox files, and binvox makes `c a n` of argument `a` for box
    `n`.  The script is killed at any moment and run again to its end.  Then there is a number `k a` of files of `a` that
    the killed run had begun, at most one more for one argument than for another, and in the second run voxcut reads for
    box `n < k a` the file of that box, the last of them perhaps torn, and for every later box `n` the file of box `n - k a`. -/
theorem binvox_kill_again [LawfulFloatText F] {quote : Bytes → Bytes} {fl : BinvoxDiceFlags} {mbb : Box F} {out : Bytes}
    (g : GoodNames fl.args) (hq : (10 : UInt8) ∉ quote fl.mbb) (ho : binvoxScript quote fl mbb = some out)
    {d d₁ d₂ : Disk} (hfresh : ∀ a ∈ fl.args, ∀ j, d (boxBin a j) = none) {c : Bytes → Nat → Bytes}
    (hmade : ∀ a ∈ fl.args, ∀ n < boxCount fl, made tool fl mbb d a n = some (c a n))
    (hk : BinvoxKilled tool lib d (shellWords out) d₁) (hr : ScriptRun (BinvoxStep tool lib) d₁ (shellWords out) d₂) :
    ∃ (k₀ : Nat) (k : Bytes → Nat), (∀ a ∈ fl.args, k₀ ≤ k a ∧ k a ≤ k₀ + 1 ∧ k a ≤ boxCount fl) ∧
      (∀ a ∈ fl.args, ∀ j, d₁ (boxBin a j) = none ↔ k a ≤ j) ∧
      ∀ n < boxCount fl, ∃ D D' e, VoxcutRun (F := F) lib D (stlFlags (boxStl n) (fl.args.map fun a => boxBin a n)) D' e ∧
        d₂ (boxStl n) = D' (boxStl n) ∧
        ∀ a ∈ fl.args, (n < k₀ → D (boxBin a n) = some (c a n)) ∧
          (n < k a → ∃ t, D (boxBin a n) = some t ∧ t <+: c a n) ∧
          (k a ≤ n → D (boxBin a n) = some (c a (n - k a))) := by
  obtain ⟨⟨k₀, hk₀, h1⟩, h2⟩ := binvox_killed (left := fun _ => []) g hq ho (fun a ha j => by rw [hfresh a ha j]; rfl) hk
  have hargs : ∀ a ∈ fl.args, d₁ a = d a := by
    intro a ha
    refine h2 a (g.plain a ha).2.2.1 (fun n _ => g.outs a ha n) ?_
    intro b _ j
    obtain ⟨s, rfl⟩ := g.stl a ha
    exact stl_ne_numbered s _ j
  have hm1 : ∀ a ∈ fl.args, ∀ n < boxCount fl, made tool fl mbb d₁ a n = some (c a n) := by
    intro a ha n hn
    rw [← hmade a ha n hn]
    unfold made
    rw [hargs a ha]
  choose! x hx hf using h1
  have hxl : ∀ a ∈ fl.args, (x a).length ≤ 1 ∧ k₀ + (x a).length ≤ boxCount fl := by
    intro a ha
    rcases hx a ha with h | ⟨hlt, _, _, _, h, _⟩ <;> rw [h]
    · exact ⟨by simp, by simpa using hk₀⟩
    · exact ⟨by simp, by rw [List.length_singleton]; omega⟩
  -- the files the first run left
  have hl : ∀ a ∈ fl.args, (List.range k₀).filterMap (made tool fl mbb d a) = (List.range k₀).map (c a) := fun a ha =>
    filterMap_all _ fun n hn => hmade a ha n (by rw [List.mem_range] at hn; omega)
  have hleft : ∀ a ∈ fl.args, ∀ j, d₁ (boxBin a j) = ((List.range k₀).map (c a) ++ x a)[j]? := by
    intro a ha j
    rw [hf a ha j, hl a ha, List.nil_append]
  obtain ⟨r1, -, -⟩ := binvox_runs (left := fun a => (List.range k₀).map (c a) ++ x a) g hq ho hleft hr
  refine ⟨k₀, fun a => k₀ + (x a).length, fun a ha => ⟨Nat.le_add_right _ _, Nat.add_le_add_left (hxl a ha).1 _, (hxl a ha).2⟩, ?_, ?_⟩
  · intro a ha j
    rw [hleft a ha, List.getElem?_eq_none_iff]
    simp
  · intro n hn
    obtain ⟨D, D', e, hv, e1, -, e3⟩ := r1 n hn
    refine ⟨D, D', e, hv, e3, ?_⟩
    intro a ha
    have e1 := e1 a ha n
    rw [filterMap_all (g := c a) _ fun m hm => hm1 a ha m (by rw [List.mem_range] at hm; omega)] at e1
    have hlen : ((List.range k₀).map (c a) ++ x a).length = k₀ + (x a).length := by simp
    have first : n < k₀ → D (boxBin a n) = some (c a n) := by
      intro hlt
      rw [e1, List.getElem?_append_left (by rw [hlen]; omega), List.getElem?_append_left (by simpa using hlt), List.getElem?_map,
        List.getElem?_range hlt]
      rfl
    refine ⟨first, ?_, ?_⟩
    · intro hlt
      dsimp only at hlt
      by_cases hlt0 : n < k₀
      · exact ⟨_, first hlt0, List.prefix_refl _⟩
      · rcases hx a ha with h | ⟨_, c', t, hc, h, ht⟩
        · rw [h] at hlt; simp at hlt; omega
        · have hnk : n = k₀ := by rw [h] at hlt; simp at hlt; omega
          subst hnk
          rw [hmade a ha n hn] at hc
          injection hc with hc
          subst hc
          refine ⟨t, ?_, ht⟩
          rw [e1, List.getElem?_append_left (by rw [hlen]; omega), List.getElem?_append_right (by simp), h]
          simp
    · intro hge
      rw [e1, List.getElem?_append_right (by rw [hlen]; exact hge), hlen, List.getElem?_map, List.getElem?_range (by omega)]
      rfl

/-- **C133 (after a complete run).** If every argument has a binvox file for every box from an earlier run, voxcut reads those,
    whatever the arguments are now and whatever binvox makes of them: the result is that of the earlier models. -/
theorem binvox_run_old [LawfulFloatText F] {quote : Bytes → Bytes} {fl : BinvoxDiceFlags} {mbb : Box F} {out : Bytes}
    (g : GoodNames fl.args) (hq : (10 : UInt8) ∉ quote fl.mbb) (ho : binvoxScript quote fl mbb = some out)
    {d d' : Disk} {left : Bytes → List Bytes} (hleft : ∀ a ∈ fl.args, ∀ j, d (boxBin a j) = (left a)[j]?)
    (hall : ∀ a ∈ fl.args, boxCount fl ≤ (left a).length)
    (h : ScriptRun (BinvoxStep tool lib) d (shellWords out) d') :
    ∀ n < boxCount fl, ∃ D D' e, VoxcutRun (F := F) lib D (stlFlags (boxStl n) (fl.args.map fun a => boxBin a n)) D' e ∧
      (∀ a ∈ fl.args, D (boxBin a n) = d (boxBin a n)) ∧ D (boxStl n) = d (boxStl n) ∧ d' (boxStl n) = D' (boxStl n) := by
  intro n hn
  obtain ⟨D, D', e, hv, e1, e2, e3⟩ := (binvox_runs g hq ho hleft h).1 n hn
  refine ⟨D, D', e, hv, ?_, e2, e3⟩
  intro a ha
  have := hall a ha
  rw [e1 a ha n, hleft a ha n, List.getElem?_append_left (by omega)]

end

/-! ## A case that meets the hypotheses -/

theorem killed_of_run {F : Type} [GoFloat F] [FloatText F] {tool : Bytes → List Bytes → Option Bytes} {lib : GL F} {l₁ l₂ : List (List Bytes)} {d d' : Disk}
    (h : ScriptRun (BinvoxStep tool lib) d l₁ d') : BinvoxKilled tool lib d (l₁ ++ l₂) d' := by
  induction h with
  | nil => exact .now
  | cons h _ ih => exact .line h ih

/-- The script for `a.stl` and `b.stl` is killed after the lines of the first box and run again: then voxcut cuts the second
    box from what binvox made for the first, and the new file for the first box goes to `a_1.binvox`. -/
example (lib : GL ℚ) : ∃ (out : Bytes) (d₁ d₂ : Disk), binvoxScript id exBinvoxFlags exMbb = some out ∧
    BinvoxKilled (fun c ns => some (c ++ joinSp ns)) lib (exBoxDisk []) (shellWords out) d₁ ∧
    ScriptRun (BinvoxStep (fun c ns => some (c ++ joinSp ns)) lib) d₁ (shellWords out) d₂ ∧
    ∃ D D' e, VoxcutRun (F := ℚ) lib D (stlFlags (ascii "out_1.stl") [ascii "a_1.binvox", ascii "b_1.binvox"]) D' e ∧
      D (ascii "a_1.binvox") = some (ascii "A" ++ joinSp ([0, 0, 0, 2, 4, 4].map fun q : ℚ => FloatText.fmtG q)) ∧
      d₂ (ascii "out_1.stl") = D' (ascii "out_1.stl") := by
  have hout := binvox_script id exBinvoxFlags exMbb exGoodNames.nonempty fun a ha => plain_percent (exGoodNames.plain a ha)
  obtain ⟨D, hD⟩ := binvox_run_exists (tool := fun c ns => some (c ++ joinSp ns)) (lib := lib)
    exGoodNames.nonempty exGoodNames.plain exGoodNames.stl (by decide) hout (exBoxDisk_finite [])
  have hD := goodBox_run hD
  obtain ⟨hs, hh, hw⟩ := binvox_shell exGoodNames.nonempty exGoodNames.plain (by decide) hout
  have st : Steps (fun c ns => some (c ++ joinSp ns)) lib (BinvoxStep (fun c ns => some (c ++ joinSp ns)) lib) := ⟨fun h => h, fun h => .comment h⟩
  have hsplit : ∃ l, bodyLines exBinvoxFlags exMbb = ((List.range 1).flatMap fun n => boxLines (boxNumbers exMbb
      (axisBoxes exBinvoxFlags.factor exBinvoxFlags.subX) (axisBoxes exBinvoxFlags.factor exBinvoxFlags.subY)
      (axisBoxes exBinvoxFlags.factor exBinvoxFlags.subZ) n) exBinvoxFlags.args n) ++ l := by
    unfold bodyLines
    rw [show boxCount exBinvoxFlags = 1 + 1 by decide, List.range_succ, List.flatMap_append]
    exact ⟨_, rfl⟩
  obtain ⟨l, hl⟩ := hsplit
  rw [hw, hl, ← List.append_assoc] at hD
  obtain ⟨d₁, h1, -⟩ := scriptRun_append hD
  have hk := killed_of_run (l₂ := l) h1
  have h1' := (run_comments st _ hh).mp h1
  have hleft : ∀ a ∈ exBinvoxFlags.args, ∀ j, exBoxDisk [] (boxBin a j) = ([] : List Bytes)[j]? := fun a _ j => by
    rw [exBoxDisk_bin]; rfl
  obtain ⟨-, b2, b3⟩ := body_run st exGoodNames (left := fun _ => []) hleft h1'
  have hfin : FiniteDisk d₁ := by
    obtain ⟨ns, hns⟩ := exBoxDisk_finite []
    refine ⟨[] :: boxStl 0 :: exBinvoxFlags.args.map (fun a => boxBin a 0) ++ ns, ?_⟩
    intro m hm
    by_contra hno
    simp only [List.mem_append, List.mem_cons, List.mem_map, not_or, not_exists, not_and] at hno
    obtain ⟨⟨h0, h1, h2⟩, h3⟩ := hno
    refine h3 (hns m ?_)
    rw [← b3 m h0 (fun n hn => by rw [show n = 0 by omega]; exact h1) ?_]
    · exact hm
    · rintro a ha j rfl
      by_cases hj : j = 0
      · subst hj; exact h2 a ha rfl
      · refine hm ?_
        rw [b2 a ha j, List.nil_append, List.getElem?_eq_none_iff]
        have := List.length_filterMap_le (made (fun c ns => some (c ++ joinSp ns)) exBinvoxFlags exMbb (exBoxDisk []) a) (List.range 1)
        rw [List.length_range] at this
        omega
  obtain ⟨d₂, hr⟩ := binvox_run_exists (tool := fun c ns => some (c ++ joinSp ns)) (lib := lib)
    exGoodNames.nonempty exGoodNames.plain exGoodNames.stl (by decide) hout hfin
  have hr := goodBox_run hr
  rw [List.append_assoc, ← hl, ← hw] at hk
  have hmade : ∀ a ∈ exBinvoxFlags.args, ∀ n < boxCount exBinvoxFlags,
      made (fun c ns => some (c ++ joinSp ns)) exBinvoxFlags exMbb (exBoxDisk []) a n =
      some ((made (fun c ns => some (c ++ joinSp ns)) exBinvoxFlags exMbb (exBoxDisk []) a n).getD []) := by
    intro a ha n _
    simp only [exBinvoxFlags, List.mem_cons, List.not_mem_nil, or_false] at ha
    rcases ha with rfl | rfl <;> rfl
  obtain ⟨k₀, k, -, w2, w3⟩ := binvox_kill_again exGoodNames (by decide) hout (fun a _ j => exBoxDisk_bin a j) hmade hk hr
  have hb : ∀ j, d₁ (boxBin (ascii "a.stl") j) = none ↔ 1 ≤ j := by
    intro j
    rw [b2 _ (by decide) j, List.nil_append, filterMap_all _ fun n hn => hmade _ (by decide) n (by
      rw [List.mem_range] at hn; have : boxCount exBinvoxFlags = 2 := by decide
      omega), List.getElem?_eq_none_iff]
    simp
  have hka : k (ascii "a.stl") = 1 := by
    have h0 := w2 (ascii "a.stl") (by decide)
    have h1 := (h0 1).symm.trans (hb 1)
    have h2 := (h0 0).symm.trans (hb 0)
    omega
  obtain ⟨E, E', e, e1, e2, e3⟩ := w3 1 (by decide)
  refine ⟨_, d₁, d₂, hout, hk, hr, E, E', e, e1, ?_, e2⟩
  have := (e3 (ascii "a.stl") (by decide)).2.2 (by omega)
  rw [hka] at this
  refine Eq.trans (b := _) this ?_
  decide +kernel

end Cmd
end StlDice
