import Verif.Model.FilterFlt

/-!
# Bilateral filtering of 8-bit pictures

`bilateral_filter` (image_operations.h 5904-6042) for elements of type `unsigned char` and kernels that take and
return a `double`: the sums are kept in `double`, every operation rounding, and the quotient is converted back.
-/

namespace TinyDIP.Filter

open TinyDIP Image Rnd

/-- An 8-bit element as a `double`, exactly: the conversion in image_operations.h:5951. -/
noncomputable def ofByte (v : BitVec 8) : Flt 53 := ⟨fl 53 v.toNat, fl_rep _⟩

/-- image_operations.h:5954, `static_cast<unsigned char>` of a quotient: the fraction is dropped. What does not fit is
undefined, and so is the conversion of the infinity or NaN that a division by zero gives. -/
noncomputable def toByteQuot (a b : Flt 53) : Res (BitVec 8) :=
  if b.val = 0 then .ub
  else if -1 < (divF a b).val ∧ (divF a b).val < 256 then .ok (BitVec.ofNat 8 ⌊(divF a b).val⌋₊)
  else .ub

/-- image_operations.h:5904-5956, `bilateral_filter_detail` for 8-bit elements. The range distance
`sqrt(pow(a - b, 2.0))` (6012-6015) is the absolute difference, which `double` holds exactly, so the range kernel is
taken as a function of that whole number. -/
noncomputable def bilateralDetailByte (range_kernel : Nat → Flt 53) (weight : Image (Flt 53))
    (input : Image (BitVec 8)) : Res (BitVec 8) := do
  let center_pixel ← input.atUnchecked (centerLocation input)
  let s ← loop (fun (s : Flt 53 × Flt 53) idx => do
    let indices ← linearToIndices idx input.size
    let v ← input.atUnchecked indices
    let r := range_kernel ((v.toNat : Int) - center_pixel.toNat).natAbs
    let sp ← weight.atUnchecked indices
    .ok (s.1 + ofByte v * r * sp, s.2 + r * sp)) (List.range input.count) (0, 0)
  toByteQuot s.1 s.2

/-- image_operations.h:6019-6034: the spatial distance in `double`. The differences of the `size_t`s wrap modulo 2^64;
`std::pow` of a number and 2.0 is taken as the rounded square. -/
noncomputable def spatialDistanceF (v1 v2 : List Nat) : Res ℝ :=
  if v1.length ≠ v2.length then .throw .runtime
  else .ok (fl 53 (Real.sqrt ((List.zipWith (fun a b => fl 53 (fl 53 (wsub a b : Nat) ^ 2)) v1 v2).foldl
    (fun s t => fl 53 (s + t)) 0)))

/-- image_operations.h:5958-5985, `bilateral_filter_spatial_kernel` in `double`. -/
noncomputable def spatialKernelWeightF (window_sizes : List Nat) (spatial_kernel : ℝ → Flt 53) :
    Res (Image (Flt 53)) := do
  let output ← ofSizeRange 0 window_sizes
  let center := centerLocation output
  loop (fun (output : Image (Flt 53)) idx => do
    let indices ← linearToIndices idx output.size
    let d ← spatialDistanceF indices center
    output.setAtUnchecked indices (spatial_kernel d)) (List.range output.count) output

/-- image_operations.h:5986-6042, `bilateral_filter` on 8-bit elements. -/
noncomputable def bilateralFilterByteOrd (order : List Nat) (input : Image (BitVec 8)) (window_sizes : List Nat)
    (range_kernel : Nat → Flt 53) (spatial_kernel : ℝ → Flt 53) (b : Boundary) (value : BitVec 8) :
    Res (Image (BitVec 8)) :=
  windowedFilterOrd 0 order input window_sizes (fun window => do
    let weight ← spatialKernelWeightF window_sizes spatial_kernel
    bilateralDetailByte range_kernel weight window) b value

end TinyDIP.Filter
