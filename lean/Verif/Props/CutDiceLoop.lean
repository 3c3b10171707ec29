import Verif.Model.CutDiceCmd
import Verif.Spec.CutDice
import Verif.Props.FlagParse
import Verif.Props.VoxcutDice

/-! # C79: the loops of voxcut-dice as a list of tiles; its commands as voxcut understands them -/

namespace StlDice
namespace Cmd
open Spec BinVOX

/-! ## The commands -/

theorem voxcutFlags_exit {float : Bytes → Bool} {args : List Bytes} {ok : Bool} (h : Flag.parse voxcutKind float args = .exit ok) :
    voxcutFlags float args = none := by
  unfold voxcutFlags
  rw [h]

theorem cutDiceFlags_exit {args : List Bytes} {ok : Bool} (h : Flag.parse cutDiceKind (fun _ => false) args = .exit ok) :
    cutDiceFlags args = none := by
  unfold cutDiceFlags
  rw [h]

theorem cutName_spec {pre : Bytes} (ext : String) (size : Int) (t : Key) (h : pre ≠ []) :
    cutName pre (ascii ext) size t = cutOut pre ext size t := by
  unfold cutName cutOut dashed
  rw [if_neg h]
  simp [List.intersperse, ascii_dash]

/-- Reading an output option. -/
theorem parse_option {float : Bytes → Bool} {name pre : Bytes} (hn : Flag.IsName name) (hk : voxcutKind name = some .str)
    (ext : String) (size : Int) (t : Key) (rest : List Bytes) :
    Flag.parse voxcutKind float (outOption (45 :: name) pre (ascii ext) size t ++ rest) =
      if pre = [] then Flag.parse voxcutKind float rest
      else (Flag.parse voxcutKind float rest).after (name, cutOut pre ext size t) := by
  unfold outOption
  by_cases h : pre = []
  · rw [if_neg (not_not.mpr h), if_pos h]; rfl
  · rw [if_pos h, if_neg h, cutName_spec ext size t h]
    exact Flag.parse_value hn hk (by decide) rfl rest

theorem parse_int {float : Bytes → Bool} {name : Bytes} {i : Int} (hn : Flag.IsName name) (hk : voxcutKind name = some .int)
    (hi : -(maxInt + 1 : Int) ≤ i ∧ i ≤ maxInt) (rest : List Bytes) :
    Flag.parse voxcutKind float ((45 :: name) :: fmtInt i :: rest) =
      (Flag.parse voxcutKind float rest).after (name, fmtInt i) := by
  refine Flag.parse_value hn hk (by decide) ?_ rest
  show (Flag.parseInt0 (fmtInt i)).isSome = true
  rw [Flag.parseInt0_fmtInt hi]
  rfl

/-- **C79.** voxcut understands the command of tile `t` as it is meant: the box `[t, t+size)`, the three
    output names, the files.  The first file must not look like a flag. -/
theorem cut_args_parsed (float : Bytes → Bool) (fl : CutDiceFlags) (t : Key)
    (hs : -(maxInt + 1 : Int) ≤ fl.size ∧ fl.size ≤ maxInt) (hx : -(maxInt + 1 : Int) ≤ t.X ∧ t.X ≤ maxInt)
    (hy : -(maxInt + 1 : Int) ≤ t.Y ∧ t.Y ≤ maxInt) (hz : -(maxInt + 1 : Int) ≤ t.Z ∧ t.Z ≤ maxInt)
    (hf : ∀ f, fl.files.head? = some f → Flag.NotFlag f) :
    voxcutFlags float (cutArgs fl t).tail = some (tileFlags fl t) := by
  have hp : Flag.parse voxcutKind float (cutArgs fl t).tail = .ok
      ([(ascii "sx", fmtInt t.X), (ascii "sy", fmtInt t.Y), (ascii "sz", fmtInt t.Z), (ascii "cx", fmtInt fl.size),
        (ascii "cy", fmtInt fl.size), (ascii "cz", fmtInt fl.size)] ++
        ((if fl.voxPrefix = [] then [] else [(ascii "ovox", cutOut fl.voxPrefix ".vox" fl.size t)]) ++
        ((if fl.binvoxPrefix = [] then [] else [(ascii "obinvox", cutOut fl.binvoxPrefix ".binvox" fl.size t)]) ++
        (if fl.stlPrefix = [] then [] else [(ascii "ostl", cutOut fl.stlPrefix ".stl" fl.size t)])))) fl.files := by
    have e : (cutArgs fl t).tail = (45 :: ascii "sx") :: fmtInt t.X :: (45 :: ascii "sy") :: fmtInt t.Y ::
        (45 :: ascii "sz") :: fmtInt t.Z :: (45 :: ascii "cx") :: fmtInt fl.size :: (45 :: ascii "cy") :: fmtInt fl.size ::
        (45 :: ascii "cz") :: fmtInt fl.size ::
        (outOption (45 :: ascii "ovox") fl.voxPrefix (ascii ".vox") fl.size t ++
        (outOption (45 :: ascii "obinvox") fl.binvoxPrefix (ascii ".binvox") fl.size t ++
        (outOption (45 :: ascii "ostl") fl.stlPrefix (ascii ".stl") fl.size t ++ fl.files))) := by
      unfold cutArgs
      simp only [List.append_assoc]
      rfl
    rw [e, parse_int (by decide) (by decide) hx, parse_int (by decide) (by decide) hy, parse_int (by decide) (by decide) hz,
      parse_int (by decide) (by decide) hs, parse_int (by decide) (by decide) hs, parse_int (by decide) (by decide) hs,
      parse_option (by decide) (by decide), parse_option (by decide) (by decide), parse_option (by decide) (by decide),
      Flag.parse_args hf]
    by_cases h1 : fl.voxPrefix = [] <;> by_cases h2 : fl.binvoxPrefix = [] <;> by_cases h3 : fl.stlPrefix = [] <;>
      simp only [h1, h2, h3, if_true, if_false] <;> rfl
  unfold voxcutFlags
  rw [hp]
  dsimp only
  have g : ∀ i : Int, -(maxInt + 1 : Int) ≤ i ∧ i ≤ maxInt → ((some (fmtInt i)).bind Flag.parseInt0).getD 0 = i := by
    intro i hi
    show (Flag.parseInt0 (fmtInt i)).getD 0 = i
    rw [Flag.parseInt0_fmtInt hi]
    rfl
  have c0 : ∀ ext, cutOut [] ext fl.size t = [] := fun ext => if_pos rfl
  congr 1
  unfold tileFlags
  by_cases h1 : fl.voxPrefix = [] <;> by_cases h2 : fl.binvoxPrefix = [] <;> by_cases h3 : fl.stlPrefix = [] <;>
    simp only [h1, h2, h3, if_true, if_false, c0] <;> congr 1 <;>
    first
    | rfl
    | (congr 1
       · exact g _ hx
       · exact g _ hy
       · exact g _ hz
       · exact g _ hs
       · exact g _ hs
       · exact g _ hs)

/-! ## The loops -/

/-- The commands of a list of tiles one after the other, up to the first that does not end well. -/
inductive RunList (step : Disk → Key → Disk → Exit → Prop) : List Key → Disk → Disk → Exit → Prop
  | nil {d} : RunList step [] d d .done
  | fails {t ts d d' e} (hs : step d t d' e) (he : e ≠ .done) : RunList step (t :: ts) d d' .fatal
  | cons {t ts d d1 d' e} (hs : step d t d1 .done) (h : RunList step ts d1 d' e) : RunList step (t :: ts) d d' e

/-- `DiceLoop` with unbounded integers. -/
inductive DiceLoopU (step : Disk → Key → Disk → Exit → Prop) (nx ny nz size : Int) :
    Int → Int → Int → Disk → Disk → Exit → Prop
  | endZ {zi yi xi d} (hz : ¬ zi < nz) : DiceLoopU step nx ny nz size zi yi xi d d .done
  | endY {zi yi xi d d' e} (hz : zi < nz) (hy : ¬ yi < ny) (h : DiceLoopU step nx ny nz size (zi + size) 0 0 d d' e) :
      DiceLoopU step nx ny nz size zi yi xi d d' e
  | endX {zi yi xi d d' e} (hz : zi < nz) (hy : yi < ny) (hx : ¬ xi < nx)
      (h : DiceLoopU step nx ny nz size zi (yi + size) 0 d d' e) : DiceLoopU step nx ny nz size zi yi xi d d' e
  | fails {zi yi xi d d' e} (hz : zi < nz) (hy : yi < ny) (hx : xi < nx) (hs : step d ⟨xi, yi, zi⟩ d' e)
      (he : e ≠ .done) : DiceLoopU step nx ny nz size zi yi xi d d' .fatal
  | tile {zi yi xi d d1 d' e} (hz : zi < nz) (hy : yi < ny) (hx : xi < nx) (hs : step d ⟨xi, yi, zi⟩ d1 .done)
      (h : DiceLoopU step nx ny nz size zi yi (xi + size) d1 d' e) : DiceLoopU step nx ny nz size zi yi xi d d' e

/-- A step of a loop that fits. -/
theorem step_fits {n size i : Int} (hs : 1 ≤ size) (hf : StepsFit n size) (h0 : 0 ≤ i) (hd : size ∣ i) (hi : i < n) :
    wrap64 (i + size) = i + size ∧ 0 ≤ i + size ∧ size ∣ i + size :=
  ⟨wrap64_small (by omega) (hf i h0 hi hd), by omega, dvd_add hd (dvd_refl _)⟩

theorem diceLoop_unbounded {step : Disk → Key → Disk → Exit → Prop} {nx ny nz size : Int} (hs : 1 ≤ size)
    (hf : TilesFit nx ny nz size) {z y x : Int} {d d' : Disk} {e : Exit} (hz : 0 ≤ z ∧ size ∣ z) (hy : 0 ≤ y ∧ size ∣ y)
    (hx : 0 ≤ x ∧ size ∣ x) : DiceLoop step nx ny nz size z y x d d' e ↔ DiceLoopU step nx ny nz size z y x d d' e := by
  have z0 : (0 : Int) ≤ 0 ∧ size ∣ 0 := ⟨le_refl _, dvd_zero _⟩
  constructor
  · intro h
    induction h with
    | endZ h => exact .endZ h
    | endY h h' _ ih =>
      obtain ⟨a, b⟩ := step_fits hs hf.2.2 hz.1 hz.2 h
      rw [a] at ih
      exact .endY h h' (ih b z0 z0)
    | endX h h' h2 _ ih =>
      obtain ⟨a, b⟩ := step_fits hs hf.2.1 hy.1 hy.2 h'
      rw [a] at ih
      exact .endX h h' h2 (ih hz b z0)
    | fails h h' h2 k he => exact .fails h h' h2 k he
    | tile h h' h2 k _ ih =>
      obtain ⟨a, b⟩ := step_fits hs hf.1 hx.1 hx.2 h2
      rw [a] at ih
      exact .tile h h' h2 k (ih hz hy b)
  · intro h
    induction h with
    | endZ h => exact .endZ h
    | endY h h' _ ih =>
      obtain ⟨a, b⟩ := step_fits hs hf.2.2 hz.1 hz.2 h
      have := ih b z0 z0
      rw [← a] at this
      exact .endY h h' this
    | endX h h' h2 _ ih =>
      obtain ⟨a, b⟩ := step_fits hs hf.2.1 hy.1 hy.2 h'
      have := ih hz b z0
      rw [← a] at this
      exact .endX h h' h2 this
    | fails h h' h2 k he => exact .fails h h' h2 k he
    | tile h h' h2 k _ ih =>
      obtain ⟨a, b⟩ := step_fits hs hf.1 hx.1 hx.2 h2
      have := ih hz hy b
      rw [← a] at this
      exact .tile h h' h2 k this

/-- The values of a loop variable from `i` on. -/
def stepsFrom (n size i : Int) : List Int := (stepLoopU n size ((n - i).toNat + 1) i).getD []

theorem stepLoop_fuel (n size : Int) : ∀ (fuel fuel' : Nat) (i : Int) (l l' : List Int), stepLoopU n size fuel i = some l →
    stepLoopU n size fuel' i = some l' → l = l' := by
  intro fuel
  induction fuel with
  | zero => intro fuel' i l l' h; cases h
  | succ fuel ih =>
    intro fuel' i l l' h h'
    cases fuel' with
    | zero => cases h'
    | succ fuel' =>
      unfold stepLoopU at h h'
      by_cases hi : i < n
      · rw [if_pos hi] at h h'
        cases h1 : stepLoopU n size fuel (i + size) with
        | none => rw [h1] at h; cases h
        | some m =>
          cases h2 : stepLoopU n size fuel' (i + size) with
          | none => rw [h2] at h'; cases h'
          | some m' =>
            rw [h1] at h
            rw [h2] at h'
            injection h with h
            injection h' with h'
            rw [← h, ← h', ih fuel' (i + size) m m' h1 h2]
      · rw [if_neg hi] at h h'
        injection h with h
        injection h' with h'
        rw [← h, ← h']

theorem stepLoop_eq {n size : Int} (hs : 1 ≤ size) {fuel : Nat} {i : Int} {l : List Int} (h : stepLoopU n size fuel i = some l) :
    l = stepsFrom n size i := by
  obtain ⟨l', h'⟩ := stepLoop_ends n size hs ((n - i).toNat + 1) i (by omega)
  unfold stepsFrom
  rw [h']
  exact stepLoop_fuel n size _ _ i l l' h h'

theorem stepsFrom_end {n size i : Int} (h : ¬ i < n) : stepsFrom n size i = [] := by
  unfold stepsFrom stepLoopU
  rw [if_neg h]
  rfl

theorem stepsFrom_next {n size i : Int} (hs : 1 ≤ size) (h : i < n) : stepsFrom n size i = i :: stepsFrom n size (i + size) := by
  obtain ⟨l, hl⟩ := stepLoop_ends n size hs (n - i).toNat (i + size) (by omega)
  unfold stepsFrom
  have e := stepLoop_eq hs hl
  unfold stepsFrom at e
  rw [← e]
  unfold stepLoopU
  rw [if_pos h, hl]
  rfl

/-- The tiles of a row from `x` on, of a layer from `y` on, of the model from `z` on. -/
def rowFrom (nx size x y z : Int) : List Key := (stepsFrom nx size x).map fun x => ⟨x, y, z⟩
def layerFrom (nx ny size y z : Int) : List Key := (stepsFrom ny size y).flatMap fun y => rowFrom nx size 0 y z
def modelFrom (nx ny nz size z : Int) : List Key := (stepsFrom nz size z).flatMap fun z => layerFrom nx ny size 0 z

/-- What is left of the loops. -/
def restOf (nx ny nz size z y x : Int) : List Key :=
  if z < nz then
    if y < ny then rowFrom nx size x y z ++ (layerFrom nx ny size (y + size) z ++ modelFrom nx ny nz size (z + size))
    else modelFrom nx ny nz size (z + size)
  else []

variable {nx ny nz size : Int}

theorem layerFrom_next (hs : 1 ≤ size) {y z : Int} (h : y < ny) :
    layerFrom nx ny size y z = rowFrom nx size 0 y z ++ layerFrom nx ny size (y + size) z := by
  unfold layerFrom
  rw [stepsFrom_next hs h, List.flatMap_cons]

theorem layerFrom_end {y z : Int} (h : ¬ y < ny) : layerFrom nx ny size y z = [] := by
  unfold layerFrom
  rw [stepsFrom_end h]
  rfl

theorem modelFrom_next (hs : 1 ≤ size) {z : Int} (h : z < nz) :
    modelFrom nx ny nz size z = layerFrom nx ny size 0 z ++ modelFrom nx ny nz size (z + size) := by
  unfold modelFrom
  rw [stepsFrom_next hs h, List.flatMap_cons]

theorem modelFrom_end {z : Int} (h : ¬ z < nz) : modelFrom nx ny nz size z = [] := by
  unfold modelFrom
  rw [stepsFrom_end h]
  rfl

theorem restOf_layer (hs : 1 ≤ size) {z y : Int} (hz : z < nz) :
    restOf nx ny nz size z y 0 = layerFrom nx ny size y z ++ modelFrom nx ny nz size (z + size) := by
  unfold restOf
  rw [if_pos hz]
  by_cases hy : y < ny
  · rw [if_pos hy, layerFrom_next hs hy, List.append_assoc]
  · rw [if_neg hy, layerFrom_end hy]; rfl

theorem restOf_model (hs : 1 ≤ size) (z : Int) : restOf nx ny nz size z 0 0 = modelFrom nx ny nz size z := by
  by_cases hz : z < nz
  · rw [restOf_layer hs hz, modelFrom_next hs hz]
  · unfold restOf
    rw [if_neg hz, modelFrom_end hz]

theorem restOf_tile (hs : 1 ≤ size) {z y x : Int} (hz : z < nz) (hy : y < ny) (hx : x < nx) :
    restOf nx ny nz size z y x = ⟨x, y, z⟩ :: restOf nx ny nz size z y (x + size) := by
  unfold restOf
  rw [if_pos hz, if_pos hy, if_pos hz, if_pos hy]
  unfold rowFrom
  rw [stepsFrom_next hs hx]
  rfl

theorem restOf_endX (hs : 1 ≤ size) {z y x : Int} (hz : z < nz) (hy : y < ny) (hx : ¬ x < nx) :
    restOf nx ny nz size z y x = restOf nx ny nz size z (y + size) 0 := by
  rw [restOf_layer hs hz]
  unfold restOf
  rw [if_pos hz, if_pos hy]
  unfold rowFrom
  rw [stepsFrom_end hx]
  rfl

theorem restOf_endY (hs : 1 ≤ size) {z y x : Int} (hz : z < nz) (hy : ¬ y < ny) :
    restOf nx ny nz size z y x = restOf nx ny nz size (z + size) 0 0 := by
  rw [restOf_model hs]
  unfold restOf
  rw [if_pos hz, if_neg hy]

theorem diceLoop_runList {step : Disk → Key → Disk → Exit → Prop} (hs : 1 ≤ size) {z y x : Int} {d d' : Disk} {e : Exit}
    (h : DiceLoopU step nx ny nz size z y x d d' e) : RunList step (restOf nx ny nz size z y x) d d' e := by
  induction h with
  | endZ hz => unfold restOf; rw [if_neg hz]; exact .nil
  | endY hz hy _ ih => rw [restOf_endY hs hz hy]; exact ih
  | endX hz hy hx _ ih => rw [restOf_endX hs hz hy hx]; exact ih
  | fails hz hy hx h he => rw [restOf_tile hs hz hy hx]; exact .fails h he
  | tile hz hy hx h _ ih => rw [restOf_tile hs hz hy hx]; exact .cons h ih

theorem runList_diceLoop {step : Disk → Key → Disk → Exit → Prop} (hs : 1 ≤ size) : ∀ (a b c : Nat) (z y x : Int),
    (nz - z).toNat ≤ a → (ny - y).toNat ≤ b → (nx - x).toNat ≤ c → ∀ {d d' : Disk} {e : Exit},
    RunList step (restOf nx ny nz size z y x) d d' e → DiceLoopU step nx ny nz size z y x d d' e := by
  intro a
  induction a with
  | zero =>
    intro b c z y x h1 _ _ d d' e h
    have hz : ¬ z < nz := by omega
    unfold restOf at h
    rw [if_neg hz] at h
    cases h
    exact .endZ hz
  | succ a iha =>
    intro b
    induction b with
    | zero =>
      intro c z y x h1 h2 _ d d' e h
      by_cases hz : z < nz
      · have hy : ¬ y < ny := by omega
        rw [restOf_endY hs hz hy] at h
        exact .endY hz hy (iha ny.toNat nx.toNat _ _ _ (by omega) (by omega) (by omega) h)
      · unfold restOf at h
        rw [if_neg hz] at h
        cases h
        exact .endZ hz
    | succ b ihb =>
      intro c
      induction c with
      | zero =>
        intro z y x h1 h2 h3 d d' e h
        by_cases hz : z < nz
        · by_cases hy : y < ny
          · have hx : ¬ x < nx := by omega
            rw [restOf_endX hs hz hy hx] at h
            exact .endX hz hy hx (ihb nx.toNat _ _ _ h1 (by omega) (by omega) h)
          · rw [restOf_endY hs hz hy] at h
            exact .endY hz hy (iha ny.toNat nx.toNat _ _ _ (by omega) (by omega) (by omega) h)
        · unfold restOf at h
          rw [if_neg hz] at h
          cases h
          exact .endZ hz
      | succ c ihc =>
        intro z y x h1 h2 h3 d d' e h
        by_cases hz : z < nz
        · by_cases hy : y < ny
          · by_cases hx : x < nx
            · rw [restOf_tile hs hz hy hx] at h
              cases h with
              | fails h he => exact .fails hz hy hx h he
              | cons h hr => exact .tile hz hy hx h (ihc z y (x + size) h1 h2 (by omega) hr)
            · rw [restOf_endX hs hz hy hx] at h
              exact .endX hz hy hx (ihb nx.toNat _ _ _ h1 (by omega) (by omega) h)
          · rw [restOf_endY hs hz hy] at h
            exact .endY hz hy (iha ny.toNat nx.toNat _ _ _ (by omega) (by omega) (by omega) h)
        · unfold restOf at h
          rw [if_neg hz] at h
          cases h
          exact .endZ hz

/-- The nested loops run the commands of the list of tiles. -/
theorem diceLoop_iff {step : Disk → Key → Disk → Exit → Prop} (hs : 1 ≤ size) (hf : TilesFit nx ny nz size) {d d' : Disk} {e : Exit} :
    DiceLoop step nx ny nz size 0 0 0 d d' e ↔ RunList step (modelFrom nx ny nz size 0) d d' e := by
  rw [← restOf_model hs, diceLoop_unbounded hs hf ⟨le_refl _, dvd_zero _⟩ ⟨le_refl _, dvd_zero _⟩ ⟨le_refl _, dvd_zero _⟩]
  exact ⟨diceLoop_runList hs, runList_diceLoop hs nz.toNat ny.toNat nx.toNat 0 0 0 (by omega) (by omega) (by omega)⟩

theorem stepsFrom_mem (hs : 1 ≤ size) (n i j : Int) : j ∈ stepsFrom n size i ↔ i ≤ j ∧ j < n ∧ size ∣ j - i := by
  obtain ⟨l, hl⟩ := stepLoop_ends n size hs ((n - i).toNat + 1) i (by omega)
  rw [← stepLoop_eq hs hl]
  exact stepLoop_mem n size hs _ i l hl j

theorem modelFrom_mem (hs : 1 ≤ size) (t : Key) : t ∈ modelFrom nx ny nz size 0 ↔ IsTile nx ny nz size t := by
  unfold modelFrom layerFrom rowFrom IsTile InDims
  simp only [List.mem_flatMap, List.mem_map, stepsFrom_mem hs, sub_zero]
  constructor
  · rintro ⟨z, hz, y, hy, x, hx, rfl⟩
    dsimp only
    exact ⟨⟨hx.1, hx.2.1, hy.1, hy.2.1, hz.1, hz.2.1⟩, hx.2.2, hy.2.2, hz.2.2⟩
  · rintro ⟨⟨h1, h2, h3, h4, h5, h6⟩, h7, h8, h9⟩
    exact ⟨t.Z, ⟨h5, h6, h9⟩, t.Y, ⟨h3, h4, h8⟩, t.X, ⟨h1, h2, h7⟩, rfl⟩

theorem stepsFrom_sorted (hs : 1 ≤ size) (n : Int) : ∀ (m : Nat) (i : Int), (n - i).toNat ≤ m →
    (stepsFrom n size i).Pairwise (· < ·) := by
  intro m
  induction m with
  | zero => intro i h; rw [stepsFrom_end (by omega)]; exact List.Pairwise.nil
  | succ m ih =>
    intro i h
    by_cases hi : i < n
    · rw [stepsFrom_next hs hi, List.pairwise_cons]
      refine ⟨?_, ih _ (by omega)⟩
      intro j hj
      have := ((stepsFrom_mem hs n (i + size) j).mp hj).1
      omega
    · rw [stepsFrom_end hi]; exact List.Pairwise.nil

/-- The tiles come in the order z, y, x. -/
theorem modelFrom_sorted (hs : 1 ≤ size) : (modelFrom nx ny nz size 0).Pairwise Before := by
  have row : ∀ y z, (rowFrom nx size 0 y z).Pairwise Before := by
    intro y z
    unfold rowFrom
    rw [List.pairwise_map]
    exact (stepsFrom_sorted hs nx _ 0 le_rfl).imp fun h => Or.inr ⟨rfl, Or.inr ⟨rfl, h⟩⟩
  have layer : ∀ z, (layerFrom nx ny size 0 z).Pairwise Before := by
    intro z
    unfold layerFrom
    rw [List.pairwise_flatMap]
    refine ⟨fun y _ => row y z, (stepsFrom_sorted hs ny _ 0 le_rfl).imp ?_⟩
    intro y y' h u hu v hv
    unfold rowFrom at hu hv
    obtain ⟨x, _, rfl⟩ := List.mem_map.mp hu
    obtain ⟨x', _, rfl⟩ := List.mem_map.mp hv
    exact Or.inr ⟨rfl, Or.inl h⟩
  unfold modelFrom
  rw [List.pairwise_flatMap]
  refine ⟨fun z _ => layer z, (stepsFrom_sorted hs nz _ 0 le_rfl).imp ?_⟩
  intro z z' h u hu v hv
  unfold layerFrom rowFrom at hu hv
  obtain ⟨y, _, hu⟩ := List.mem_flatMap.mp hu
  obtain ⟨y', _, hv⟩ := List.mem_flatMap.mp hv
  obtain ⟨x, _, rfl⟩ := List.mem_map.mp hu
  obtain ⟨x', _, rfl⟩ := List.mem_map.mp hv
  exact Or.inl h

/-- The tiles of the dry run are the same. -/
theorem diceStarts_modelFrom (hs : 1 ≤ size) (hf : TilesFit nx ny nz size) {fuel : Nat} {ts : List Key} (h : diceStarts fuel nx ny nz size = some ts) :
    ts = modelFrom nx ny nz size 0 := by
  rw [diceStarts_unbounded hs hf] at h
  unfold diceStartsU at h
  unfold modelFrom layerFrom rowFrom
  cases hz : stepLoopU nz size fuel 0 with
  | none => rw [hz] at h; cases h
  | some zs =>
    rw [hz] at h
    rw [← stepLoop_eq hs hz]
    cases zs with
    | nil => injection h with h; rw [← h]; rfl
    | cons z zs =>
      dsimp only at h
      cases hy : stepLoopU ny size fuel 0 with
      | none => rw [hy] at h; cases h
      | some ys =>
        rw [hy] at h
        rw [← stepLoop_eq hs hy]
        cases ys with
        | nil => injection h with h; rw [← h]; simp
        | cons y ys =>
          dsimp only at h
          cases hx : stepLoopU nx size fuel 0 with
          | none => rw [hx] at h; cases h
          | some xs =>
            rw [hx] at h
            rw [← stepLoop_eq hs hx]
            injection h with h
            rw [← h]

/-! ## Examples -/

/-- The flags of the tile at `(256, 0, 0)`. -/
example := cut_args_parsed (fun _ => true) ⟨256, ascii "o", [], [], [ascii "base.binvox", ascii "cut.binvox"]⟩ ⟨256, 0, 0⟩ (by decide) (by decide)
  (by decide) (by decide) (by rintro f h; cases h; unfold Flag.NotFlag; decide)

end Cmd
end StlDice
