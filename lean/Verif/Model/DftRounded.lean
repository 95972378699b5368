import Verif.Model.Rounding
import Verif.Model.Color
import Verif.Model.Transform

/-!
# The Fourier transform in the arithmetic of long double

`dft2` and `idft2` (image_operations.h 737-791) as in `Transform`, with each operation rounded to the `p` bits of
`long double` (64 on x86, 53 or 113 elsewhere). `cosine` and `sine` are the library's `std::cos` and `std::sin`.
-/

namespace TinyDIP.Rnd

open TinyDIP Image

/-- image_operations.h 754, 756, 783-784: the argument
`2 * pi * (x * m / (long double)width + y * n / (long double)height)`. -/
noncomputable def dftAngleL (p w h x y m n : Nat) : ℝ :=
  fl p (fl p (2 * fl p Real.pi) *
    fl p (fl p (fl p (wmul x m) / fl p w) + fl p (fl p (wmul y n) / fl p h)))

/-- image_operations.h 742, 771: `std::sqrt(1.0 / (long double)(width * height))`. -/
noncomputable def dftNormL (p w h : Nat) : ℝ := fl p (Real.sqrt (fl p (1 / fl p (wmul w h))))

/-- image_operations.h 737-764, `dft2` of an 8-bit image: the levels become `int` and then `long double`, both
exactly, so does the negated level of line 755. -/
noncomputable def dft2L (p : Nat) (cosine sine : ℝ → ℝ) (input : Image (BitVec 8)) : Res (Image ℂ) :=
  forUp input.height (fun output y =>
    forUp input.width (fun (output : Image ℂ) x => do
      let (sum_real, sum_imag) ← forUp input.height (fun s n =>
        forUp input.width (fun (s : ℝ × ℝ) m => do
          let v ← input.at2u m n
          .ok (fl p (s.1 + fl p (Color.real8 v * cosine (dftAngleL p input.width input.height x y m n))),
               fl p (s.2 + fl p (-Color.real8 v * sine (dftAngleL p input.width input.height x y m n))))) s) (0, 0)
      output.set2u x y ⟨fl p (dftNormL p input.width input.height * sum_real),
        fl p (dftNormL p input.width input.height * sum_imag)⟩)
      output) (ofSizes 0 [input.width, input.height])

/-- image_operations.h 767-791, `idft2`. The product of complex numbers is four products, a difference and a sum;
`cos + i * sin` has the parts `cos` and `sin` (products with 0 and 1 and sums with 0 are exact). -/
noncomputable def idft2L (p : Nat) (cosine sine : ℝ → ℝ) (input : Image ℂ) : Res (Image ℂ) :=
  forUp input.height (fun output y =>
    forUp input.width (fun (output : Image ℂ) x => do
      let sum ← forUp input.height (fun s n =>
        forUp input.width (fun (s : ℂ) m => do
          let v ← input.at2u m n
          let c := cosine (dftAngleL p input.width input.height x y m n)
          let d := sine (dftAngleL p input.width input.height x y m n)
          .ok ⟨fl p (s.re + fl p (fl p (v.re * c) - fl p (v.im * d))),
            fl p (s.im + fl p (fl p (v.re * d) + fl p (v.im * c)))⟩) s) 0
      output.set2u x y ⟨fl p (dftNormL p input.width input.height * sum.re),
        fl p (dftNormL p input.width input.height * sum.im)⟩) output)
    (ofSizes 0 [input.width, input.height])

end TinyDIP.Rnd
