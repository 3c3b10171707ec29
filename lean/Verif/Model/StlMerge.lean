import Verif.Model.Text

/-! # Merging STL files with a worker pool: stl/stl.go -/

namespace StlDice

/-- Where a worker goroutine of `Merge` is, stl/stl.go:32-38 and 49-57. -/
inductive WorkerPC (T : Type) where
  /-- about to call `gl.LoadSTL` -/
  | start
  /-- the file was loaded, about to call `addFunc` -/
  | loaded (mesh : List T)
  /-- about to execute `<-ch` -/
  | release
  /-- about to execute `wg.Done()` -/
  | done

/-- Does the worker hold one of the slots of `ch`? -/
def WorkerPC.holds {T : Type} : WorkerPC T → Bool
  | .done => false
  | _ => true

/-- Joint state of `Merge` and its goroutines: files not started yet, running goroutines, number of
    elements in the channel, the wait group counter, `mesh` (`none` = nil), `mergeErr != nil`, and
    what `Merge` has returned (`some none` = an error).
    A mesh is the list of its triangles (fauxgl: `Mesh.Add` appends them). -/
structure Pool (T : Type) where
  todo : List Bytes
  workers : List (Bytes × WorkerPC T)
  tokens : Nat
  wg : Nat
  mesh : Option (List T)
  err : Bool
  returned : Option (Option (Option (List T)))

/-- The state when `Merge(files, numWorkers)` is called. -/
def Pool.init {T : Type} (files : List Bytes) : Pool T := ⟨files, [], 0, 0, none, false, none⟩

/-- `addFunc`, stl/stl.go:17-25 (atomic because of the mutex). -/
def addMesh {T : Type} (mesh : Option (List T)) (m : List T) : List T :=
  match mesh with
  | none => m
  | some old => old ++ m

/-- One scheduling step; `load` is what `gl.LoadSTL` returns for a file (`none` = error), `cap` is
    numWorkers.  Simplification: the unsynchronised write of `mergeErr` is modelled as setting a flag
    (every value written is a non-nil error). -/
inductive PoolStep {T : Type} (load : Bytes → Option (List T)) (cap : Nat) : Pool T → Pool T → Prop
  /-- `ch <- struct{}{}`, `wg.Add(1)` and starting the goroutine, stl/stl.go:29-31; a buffered channel
      takes an element while it holds fewer than `cap` (with `cap = 0` a send needs a receiver, and no
      receiver exists before the first send). -/
  | spawn {s : Pool T} {f fs} (h : s.todo = f :: fs) (hc : s.tokens < cap) :
      PoolStep load cap s
        { s with todo := fs, tokens := s.tokens + 1, wg := s.wg + 1,
                 workers := s.workers ++ [(f, .start)] }
  /-- `gl.LoadSTL` succeeds, stl/stl.go:50. -/
  | loadOk {s : Pool T} {pre post f m} (h : s.workers = pre ++ (f, .start) :: post)
      (hl : load f = some m) :
      PoolStep load cap s { s with workers := pre ++ (f, .loaded m) :: post }
  /-- `gl.LoadSTL` fails, stl/stl.go:51-53, 32-34. -/
  | loadFail {s : Pool T} {pre post f} (h : s.workers = pre ++ (f, .start) :: post)
      (hl : load f = none) :
      PoolStep load cap s { s with workers := pre ++ (f, .release) :: post, err := true }
  /-- `addFunc(mesh)`, stl/stl.go:55. -/
  | add {s : Pool T} {pre post f m} (h : s.workers = pre ++ (f, .loaded m) :: post) :
      PoolStep load cap s
        { s with workers := pre ++ (f, .release) :: post, mesh := some (addMesh s.mesh m) }
  /-- `<-ch`, stl/stl.go:35. -/
  | release {s : Pool T} {pre post f} (h : s.workers = pre ++ (f, .release) :: post)
      (ht : 0 < s.tokens) :
      PoolStep load cap s { s with workers := pre ++ (f, .done) :: post, tokens := s.tokens - 1 }
  /-- `wg.Done()`, stl/stl.go:36. -/
  | wgDone {s : Pool T} {pre post f} (h : s.workers = pre ++ (f, .done) :: post) :
      PoolStep load cap s { s with workers := pre ++ post, wg := s.wg - 1 }
  /-- `wg.Wait()` and the return, stl/stl.go:39-45. -/
  | ret {s : Pool T} (h : s.todo = []) (hw : s.wg = 0) (hr : s.returned = none) :
      PoolStep load cap s { s with returned := some (if s.err then none else some s.mesh) }

/-- Any number of steps. -/
inductive PoolReach {T : Type} (load : Bytes → Option (List T)) (cap : Nat) : Pool T → Pool T → Prop
  | refl (s) : PoolReach load cap s s
  | tail {a b c} (h : PoolReach load cap a b) (s : PoolStep load cap b c) : PoolReach load cap a c

/-- The files merge-stl passes on, cmd/merge-stl/merge-stl.go:29-45 (and
    cmd/merge-binvox/merge-binvox.go:29-45): `none` is the fatal exit "already exists". -/
def mergeInputs (outFile : Bytes) (force : Bool) : List Bytes → Option (List Bytes)
  | [] => some []
  | f :: fs =>
    if f ≠ outFile then (mergeInputs outFile force fs).map (f :: ·)
    else if force then mergeInputs outFile force fs
    else none

end StlDice
