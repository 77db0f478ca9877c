import Verif.Model.Vectors
import Verif.Model.Ragged
import Verif.Model.Tracked
import Verif.Model.Foreign
/-
tests/test_glm_vec234.py, test_glm_mat234.py, test_glm_swizzle.py, test_glm_vlist.py and
test_glm_tracked.py of the project, on the model. (They import `gsp.glm`, which is now
`gsp_matplotlib.glm`.)
-/

namespace Verif.TestGlm

/-! ### test_glm_vec234.py and test_glm_mat234.py -/

/-- test_default_type and test_default_shape. -/
example : glmMake "vec2" .none = .ok ⟨[2], float32⟩ ∧ glmMake "vec3" .none = .ok ⟨[3], float32⟩ ∧
    glmMake "vec4" .none = .ok ⟨[4], float32⟩ ∧ glmMake "mat2" .none = .ok ⟨[2, 2], float32⟩ ∧
    glmMake "mat3" .none = .ok ⟨[3, 3], float32⟩ ∧
    glmMake "mat4" .none = .ok ⟨[4, 4], float32⟩ := by decide +kernel

/-- test_dtype and test_ctype: `np.ubyte`. -/
example : ∀ n ∈ ["bvec2", "bvec3", "bvec4", "bmat2", "bmat3", "bmat4"],
    ((glmMake n (.int 1)).toOption.map (·.type)) = some uint8 := by decide +kernel

/-- test_shape. -/
example : ((glmMake "vec2" (.int 10)).toOption.map (·.shape)) = some [10, 2] ∧
    ((glmMake "vec3" (.int 10)).toOption.map (·.shape)) = some [10, 3] ∧
    ((glmMake "vec4" (.int 10)).toOption.map (·.shape)) = some [10, 4] ∧
    ((glmMake "vec2" (.tuple [3, 3])).toOption.map (·.shape)) = some [3, 3, 2] ∧
    ((glmMake "vec3" (.tuple [3, 3])).toOption.map (·.shape)) = some [3, 3, 3] ∧
    ((glmMake "vec4" (.tuple [3, 3])).toOption.map (·.shape)) = some [3, 3, 4] ∧
    ((glmMake "mat2" (.int 10)).toOption.map (·.shape)) = some [10, 2, 2] ∧
    ((glmMake "mat3" (.int 10)).toOption.map (·.shape)) = some [10, 3, 3] ∧
    ((glmMake "mat4" (.int 10)).toOption.map (·.shape)) = some [10, 4, 4] ∧
    ((glmMake "mat2" (.tuple [3, 3])).toOption.map (·.shape)) = some [3, 3, 2, 2] ∧
    ((glmMake "mat3" (.tuple [3, 3])).toOption.map (·.shape)) = some [3, 3, 3, 3] ∧
    ((glmMake "mat4" (.tuple [3, 3])).toOption.map (·.shape)) = some [3, 3, 4, 4] := by decide +kernel

/-- test_swap. `Z.yx` of one vector has the shape (1, 2). -/
example : setAttr vec2Names 1 [[7, 8]] "xy".toList (.vec [1, 2]) = .ok [[1, 2]] ∧
    getAttr vec2Names [[1, 2]] "yx".toList = .ok [[2, 1]] ∧
    setAttr vec2Names 1 [[1, 2]] "xy".toList (.mat 2 [[2, 1]]) = .ok [[2, 1]] ∧
    setAttr vec2Names 1 [[2, 1]] "yx".toList (.mat 2 [[2, 1]]) = .ok [[1, 2]] := by decide +kernel

/-! ### test_glm_swizzle.py -/

/-- A new array holds anything. -/
def new2 : Rows := (List.range 10).map fun i : Nat => [(i : ℚ) * 17, 5 - i]
def new4 : Rows := (List.range 10).map fun i : Nat => [(i : ℚ) * 17, 5 - i, 3, i]

/-- `np.arange(10)`. -/
def arange : List ℚ := (List.range 10).map fun i : Nat => (i : ℚ)

/-- test_ordered and test_unordered. -/
example : setAttr vec2Names 10 new2 "xy".toList (.vec [1, 2]) = .ok (List.replicate 10 [1, 2]) ∧
    setAttr vec2Names 10 new2 "yx".toList (.vec [2, 1]) = .ok (List.replicate 10 [1, 2]) := by
  decide +kernel

/-- test_rgba. -/
example : setAttr vec4Names 10 new4 "rgba".toList (.vec [1, 2, 3, 4]) =
    .ok (List.replicate 10 [1, 2, 3, 4]) := by decide +kernel

/-- test_mix does not hold of this code: `xyba` mixes two notations and changes nothing. -/
example : setAttr vec4Names 10 new4 "xyba".toList (.vec [1, 2, 3, 4]) = .ok new4 := by decide +kernel

/-- test_set_1 and test_set_2. -/
example : (setAttr vec2Names 10 new2 "x".toList (.vec (List.replicate 10 1))).bind
      (fun Z => setAttr vec2Names 10 Z "y".toList (.vec (List.replicate 10 2))) =
      .ok (List.replicate 10 [1, 2]) ∧
    (setAttr vec2Names 10 new2 "x".toList (.vec arange)).bind
      (fun Z => setAttr vec2Names 10 Z "y".toList (.vec (arange.map (2 * ·)))) =
      .ok (arange.map fun i => [i, 2 * i]) := by decide +kernel

/-- test_set_3. -/
example : setAttr vec2Names 10 new2 "xy".toList (.mat 10 [arange, arange.map (2 * ·)]) =
    .ok (arange.map fun i => [i, 2 * i]) := by decide +kernel

/-- test_set_4. -/
example : setAttr vec2Names 10 new2 "xy".toList (.mat 2 (arange.map fun i => [2 * i, 2 * i + 1])) =
    .ok (arange.map fun i => [2 * i, 2 * i + 1]) := by decide +kernel

/-- test_repeated_target and test_repeated_source. -/
example : (getAttr vec2Names (List.replicate 10 [1, 2]) "yy".toList).bind
      (fun v => setAttr vec2Names 10 (List.replicate 10 [1, 2]) "xy".toList (.mat 2 v)) =
      .ok (List.replicate 10 [2, 2]) ∧
    setAttr vec2Names 10 new2 "xxy".toList (.vec [1, 2, 0]) = .ok (List.replicate 10 [2, 0]) := by
  decide +kernel

/-- test_multidimensional: `Z[1]` has 4 components and is one vector. -/
example : setAttr vec4Names 4 [[0, 0, 0, 0]] "z".toList (.scalar 1) = .ok [[0, 0, 1, 0]] := by
  decide +kernel

/-! ### test_glm_vlist.py -/

/-- test_creation_1 and test_creation_5. -/
example : ((raggedLists [[1], [1, 1], [1, 1, 1]]).toOption.map
      fun V : Ragged ℚ => (V.len, V.itemsize, V.data.length)) = some (3, [1, 2, 3], 6) ∧
    ((raggedLists [[0], [1, 2], [3, 4, 5], [6, 7, 8, 9]]).toOption.map
      fun V : Ragged ℚ => (V.len, V.itemsize)) = some (4, [1, 2, 3, 4]) := by decide +kernel

/-- test_creation_2 and test_creation_3. -/
example : ((raggedSizes (List.replicate 6 1) [1, 2, 3]).toOption.map
      fun V : Ragged ℚ => (V.len, V.itemsize, V.data.length)) = some (3, [1, 2, 3], 6) ∧
    ((raggedSize (List.replicate 6 1) 2).toOption.map
      fun V : Ragged ℚ => (V.len, V.itemsize, V.data.length)) = some (3, [2, 2, 2], 6) := by
  decide +kernel

/-- test_creation_4: two vectors of two numbers. -/
example : ((raggedSize (List.replicate 10 [1, 1]) 2).toOption.map
      fun V : Ragged (List ℚ) => (V.len, (V.get (.int 0)).toOption)) =
    some (5, some [[1, 1], [1, 1]]) := by decide +kernel

/-- test_setitem_1, test_setitem_2 and test_setitem_3. -/
example : ((raggedSize (List.replicate 6 0) 2).toOption.bind fun V : Ragged ℚ =>
      (V.set (.int 1) [1]).toOption.bind fun V => (V.get (.int 1)).toOption) = some [1, 1] ∧
    ((raggedSize (List.replicate 10 0) 2).toOption.bind fun V : Ragged ℚ =>
      (V.set (.slice 3 5 1) [1]).toOption.bind fun V => (V.get (.slice 3 5 1)).toOption) =
      some [1, 1, 1, 1] ∧
    ((raggedSize (List.replicate 10 [0, 0]) 2).toOption.bind fun V : Ragged (List ℚ) =>
      (V.set (.int 0) [[1, 1]]).toOption.bind fun V => (V.get (.int 0)).toOption) =
      some [[1, 1], [1, 1]] := by decide +kernel

/-! ### test_glm_tracked.py

The buffer of these tests is `np.empty`: it holds anything at first. -/

/-- A new array with some contents, and a buffer with others. -/
def newTracked (item : Nat) (shape : List Nat) : ArrState :=
  { arrInit item shape true (List.replicate (shape.prod * item) 85) with
    mirror := List.replicate (shape.prod * item) 170 }

/-- test_creation: a view has no buffer of its own (here there is one for all). -/
example : (newTracked 8 [10]).mirror.length = 80 ∧ (newTracked 8 [10, 10]).mirror.length = 800 := by
  decide +kernel

/-- test_1d_tracking. -/
example :
    let Z := arrRun (newTracked 8 [10])
      [.write .owner [] (List.replicate 80 0), .write .owner [.at 0] [0, 0, 0, 0, 0, 0, 240, 63],
       .write .owner [.at (-1)] [0, 0, 0, 0, 0, 0, 0, 64],
       .write .owner [.range 3 5 1] (List.replicate 5 [0, 0, 0, 0, 0, 0, 8, 64]).flatten]
    Z.mem = Z.mirror ∧ Z.mem.take 8 = [0, 0, 0, 0, 0, 0, 240, 63] := by decide +kernel

/-- test_2d_tracking. -/
example :
    let Z := arrRun (newTracked 8 [3, 3])
      [.write .owner [] (List.replicate 72 0),
       .write .owner [.range 0 3 1, .at 0] (List.replicate 3 [0, 0, 0, 0, 0, 0, 240, 63]).flatten,
       .write .owner [.at 0, .range 0 3 1] (List.replicate 3 [0, 0, 0, 0, 0, 0, 0, 64]).flatten,
       .write .owner [.range 1 1 1, .range 1 1 1] [0, 0, 0, 0, 0, 0, 8, 64]]
    Z.mem = Z.mirror := by decide +kernel

/-- test_vec_tracking: `Z[0].z = 1` assigns through the view `Z[0]`. -/
example :
    let Z := arrRun (newTracked 4 [10, 4]) [.write .owner [] (List.replicate 160 0)]
    let Z' := arrRun Z [.view .owner [.at 0], .write (.view 0) [.at 2] [0, 0, 128, 63]]
    Z.mem = Z.mirror ∧ Z'.mem = Z'.mirror ∧ (Z'.mem.drop 8).take 4 = [0, 0, 128, 63] := by
  decide +kernel

/-- test_partial_tracking: `Z2 = Z1[2:-1].view(tracked)`. -/
example :
    let Z2 := { foreignInit 8 [7] (cStrides 8 [7]) 16 (List.replicate 56 0) with
      mirror := List.replicate 56 170 }
    let Z := foreignRun Z2
      [([], [], List.replicate 56 0), ([], [.at 0], [0, 0, 0, 0, 0, 0, 240, 63]),
       ([], [.at (-1)], [0, 0, 0, 0, 0, 0, 0, 64]),
       ([], [.range 3 4 1], (List.replicate 4 [0, 0, 0, 0, 0, 0, 8, 64]).flatten)]
    Z.data = Z.mirror ∧ Z.data.take 8 = [0, 0, 0, 0, 0, 0, 240, 63] := by decide +kernel

/-- test_structured_non_tracked_array, the field `color`: `C.rgba = 1, 2, 3, 4` assigns one component
of all vectors after the other. -/
example :
    let C := { foreignInit 1 [5, 4] [16, 1] 12 (List.replicate 68 0) with
      mirror := List.replicate 20 170 }
    let C' := foreignRun C
      [([], [.range 0 5 1, .at 0], List.replicate 5 1), ([], [.range 0 5 1, .at 1], List.replicate 5 2),
       ([], [.range 0 5 1, .at 2], List.replicate 5 3), ([], [.range 0 5 1, .at 3], List.replicate 5 4)]
    C'.data = C'.mirror ∧ C'.data = (List.replicate 5 [1, 2, 3, 4]).flatten := by decide +kernel

end Verif.TestGlm
