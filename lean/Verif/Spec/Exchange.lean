import Verif.Model.Exchange

/-! # Vocabulary for data exchanged with other libraries -/

namespace H2d.Spec

variable {K : Type}

/-- The data of a `cv::Mat` has the announced size. -/
def CvMat.Ok (m : CvMat K) : Prop := m.data.length = m.rows * m.cols * m.channels

/-- Matrices that can hold a homography: 3 x 3, one channel, type `CV_64F` or `CV_32F`. -/
def CvMat.Holds (m : CvMat K) : Prop := m.rows = 3 ∧ m.cols = 3 ∧ m.channels = 1 ∧ (m.type = .f64 ∨ m.type = .f32)

/-- The element at row `i` and column `j`, for matrices with one channel. -/
def CvMat.at (m : CvMat K) (i j : ℕ) : Option K := m.data[i * m.cols + j]?

/-- Conversion of a number to an integer with an error of at most one half (rule for ties left open). -/
def RoundsHalf (f : ℝ → ℤ) : Prop := ∀ x, |(f x : ℝ) - x| ≤ 1 / 2

end H2d.Spec
