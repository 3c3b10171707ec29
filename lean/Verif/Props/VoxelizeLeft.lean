import Verif.Props.PlaneCut

/-! # Voxels left of the region (C29, refutation of the documented bound) -/

namespace StlDice
open Spec GoFloat BinVOX

/-- A one-voxel region of 1 mm. -/
def leftRegion : BinVOX ℚ := BinVOX.New 1 1 1 0 0 0 1 false

/-- One upright triangle half a millimetre left of the region. -/
def leftMesh : Mesh ℚ where
  heap _ := ⟨⟨⟨-1/2, 1/2, 0⟩, ⟨-1, 0, 0⟩⟩, ⟨⟨-1/2, 1/2, 1⟩, ⟨-1, 0, 0⟩⟩, ⟨⟨-1/4, 1/2, 0⟩, ⟨-1, 0, 0⟩⟩⟩
  Triangles := [0]

/-- **C29.** The documented subregion `(0,0,0)-(NX-1,NY-1,NZ-1)` is not respected on the left: under
    every schedule the voxel `(-1,0,0)` is stored for `leftMesh`. -/
theorem voxelize_negative_x :
    (∃ b', VoxelizeRun leftRegion leftMesh (.ok b')) ∧
    ∀ b', VoxelizeRun leftRegion leftMesh (.ok b') → b'.white.has ⟨-1, 0, 0⟩ = true := by
  have hd : ¬ zeroDim leftRegion := by decide
  constructor
  · obtain ⟨out, h⟩ := (voxelize_defined leftRegion leftMesh).1
    obtain ⟨b', hb, _⟩ := voxelize_exact _ _ hd _ h
    exact ⟨b', hb ▸ h⟩
  · intro b' h
    have hq : intersectTriZPlane 0 (leftMesh.heap 0) (sliceHeight leftRegion 0)
        = some ⟨⟨-1/2, 1/2, 1/2⟩, ⟨-3/8, 1/2, 1/2⟩, 0⟩ := by decide +kernel
    have ht := endpoints_touched leftRegion leftMesh 0 0 _ (by simp [leftMesh]) hq
      ⟨-1/2, 1/2, 1/2⟩ (Or.inl rfl) (by decide +kernel)
    have e1 : gridCoord leftRegion.VoxelsPerMM (1/2) leftRegion.TY = 0 := by decide +kernel
    have e2 : gridCoord leftRegion.VoxelsPerMM (-1/2) leftRegion.TX = -1 := by decide +kernel
    dsimp only at ht
    rw [e1, e2] at ht
    exact voxelize_shell leftRegion b' leftMesh h (-1) 0 0 0 ⟨le_refl _, by decide⟩ (by decide) ht

end StlDice
