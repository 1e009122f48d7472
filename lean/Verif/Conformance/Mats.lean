import Verif.Float.Binary
import Verif.Model.Mat

/-!
The crate's own vector and matrix tests (`/repo/lib/test/test_mat*.rs`), run on the model in binary64; see
`Verif/Conformance/Shapes.lean` for what these checks are for.
-/

set_option autoImplicit false
set_option linter.unusedSectionVars false

namespace Mazth.Conformance.Mats

/-- a decimal literal `n / 10^k` of the Rust source, rounded to binary64 -/
def dec (n : ℤ) (k : ℕ := 0) : Fl Q64 := Fl.lit ((n : ℚ) / (10 ^ k : ℕ) : ℚ)

/-- `[n; k]` -/
def rep {k : ℕ} (n : ℤ) (e : ℕ := 0) : Vector (Fl Q64) k := Vector.replicate k (dec n e)

/-- the array `a, a + 1, …` -/
def iota {k : ℕ} (a : ℤ) : Vector (Fl Q64) k := Vector.ofFn fun i => dec (a + i)


/-! ### test_mat1x3.rs -/
example : (⟨rep 10⟩ : Mat1x3 (Fl Q64)).size = some 3 := rfl
example : ((⟨rep 10⟩ : Mat1x3 (Fl Q64)).mulElem (⟨rep 2⟩ : Mat1x3 (Fl Q64))).bind (·.isEqual ⟨rep 20⟩ (dec 1 4)) = some true := by decide +kernel
example : ((⟨rep 10⟩ : Mat1x3 (Fl Q64)).div (⟨rep 2⟩ : Mat1x3 (Fl Q64))).bind (·.isEqual ⟨rep 5⟩ (dec 1 4)) = some true := by decide +kernel
example : ((⟨rep 10⟩ : Mat1x3 (Fl Q64)).plus (⟨rep 2⟩ : Mat1x3 (Fl Q64))).bind (·.isEqual ⟨rep 12⟩ (dec 1 4)) = some true := by decide +kernel
example : ((⟨rep 10⟩ : Mat1x3 (Fl Q64)).minus (⟨rep 2⟩ : Mat1x3 (Fl Q64))).bind (·.isEqual ⟨rep 8⟩ (dec 1 4)) = some true := by decide +kernel
example : (⟨rep 2⟩ : Mat1x3 (Fl Q64)).magnitude.map (Fl.feq · (Fl.sqrt (dec 2 * dec 2 * dec 3))) = some true := by decide +kernel
example : (⟨rep 2⟩ : Mat1x3 (Fl Q64)).normalize.bind (·.isEqual ⟨Vector.replicate _ (dec 2 / Fl.sqrt (dec 2 * dec 2 * dec 3))⟩ (dec 1 4)) = some true := by
  decide +kernel
example : ((⟨rep 2⟩ : Mat1x3 (Fl Q64)).scale (dec 4)).bind (·.isEqual ⟨rep 8⟩ (dec 1 4)) = some true := by decide +kernel
example : (⟨#v[dec 50 1, dec 53 1, dec 77 1]⟩ : Mat1x3 (Fl Q64)).isEqual ⟨#v[dec 51 1, dec 54 1, dec 78 1]⟩ (dec 1001 4) = some true := by decide +kernel
example : (⟨#v[dec 50 1, dec 53 1, dec 77 1]⟩ : Mat1x3 (Fl Q64)).isEqual ⟨#v[dec 51 1, dec 54 1, dec 78 1]⟩ (dec 999 4) = some false := by decide +kernel
example : ((⟨#v[dec 1, dec 2, dec (-4)]⟩ : Mat1x3 (Fl Q64)).mulMat3x3 (Mat3.init (iota 0) true)).bind
    (·.isEqual ⟨#v[dec (-18), dec (-19), dec (-20)]⟩ (dec 1 5)) = some true := by decide +kernel

/-! ### test_mat1x4.rs -/
example : (⟨rep 10⟩ : Mat1x4 (Fl Q64)).size = some 4 := rfl
example : ((⟨rep 10⟩ : Mat1x4 (Fl Q64)).mulElem (⟨rep 2⟩ : Mat1x4 (Fl Q64))).bind (·.isEqual ⟨rep 20⟩ (dec 1 4)) = some true := by decide +kernel
example : ((⟨rep 10⟩ : Mat1x4 (Fl Q64)).div (⟨rep 2⟩ : Mat1x4 (Fl Q64))).bind (·.isEqual ⟨rep 5⟩ (dec 1 4)) = some true := by decide +kernel
example : ((⟨rep 10⟩ : Mat1x4 (Fl Q64)).plus (⟨rep 2⟩ : Mat1x4 (Fl Q64))).bind (·.isEqual ⟨rep 12⟩ (dec 1 4)) = some true := by decide +kernel
example : ((⟨rep 10⟩ : Mat1x4 (Fl Q64)).minus (⟨rep 2⟩ : Mat1x4 (Fl Q64))).bind (·.isEqual ⟨rep 8⟩ (dec 1 4)) = some true := by decide +kernel
example : (⟨rep 2⟩ : Mat1x4 (Fl Q64)).magnitude.map (Fl.feq · (Fl.sqrt (dec 2 * dec 2 * dec 4))) = some true := by decide +kernel
example : (⟨rep 2⟩ : Mat1x4 (Fl Q64)).normalize.bind (·.isEqual ⟨Vector.replicate _ (dec 2 / Fl.sqrt (dec 2 * dec 2 * dec 4))⟩ (dec 1 4)) = some true := by
  decide +kernel
example : ((⟨rep 2⟩ : Mat1x4 (Fl Q64)).scale (dec 4)).bind (·.isEqual ⟨rep 8⟩ (dec 1 4)) = some true := by decide +kernel
example : (⟨#v[dec 50 1, dec 53 1, dec 77 1, dec 20]⟩ : Mat1x4 (Fl Q64)).isEqual ⟨#v[dec 51 1, dec 54 1, dec 78 1, dec 199 1]⟩ (dec 1001 4) = some true := by decide +kernel
example : (⟨#v[dec 50 1, dec 53 1, dec 77 1, dec 20]⟩ : Mat1x4 (Fl Q64)).isEqual ⟨#v[dec 51 1, dec 54 1, dec 78 1, dec 199 1]⟩ (dec 999 4) = some false := by decide +kernel
example : ((⟨#v[dec 1, dec 2, dec (-4), dec 5]⟩ : Mat1x4 (Fl Q64)).mulMat4x4 (Mat4.init (iota 0) true)).bind
    (·.isEqual ⟨#v[dec 36, dec 40, dec 44, dec 48]⟩ (dec 1 5)) = some true := by decide +kernel

/-! ### test_mat3x1.rs -/
example : (⟨rep 10⟩ : Mat3x1 (Fl Q64)).size = some 3 := rfl
example : ((⟨rep 10⟩ : Mat3x1 (Fl Q64)).mulElem (⟨rep 2⟩ : Mat3x1 (Fl Q64))).bind (·.isEqual ⟨rep 20⟩ (dec 1 4)) = some true := by decide +kernel
example : ((⟨rep 10⟩ : Mat3x1 (Fl Q64)).div (⟨rep 2⟩ : Mat3x1 (Fl Q64))).bind (·.isEqual ⟨rep 5⟩ (dec 1 4)) = some true := by decide +kernel
example : ((⟨rep 10⟩ : Mat3x1 (Fl Q64)).plus (⟨rep 2⟩ : Mat3x1 (Fl Q64))).bind (·.isEqual ⟨rep 12⟩ (dec 1 4)) = some true := by decide +kernel
example : ((⟨rep 10⟩ : Mat3x1 (Fl Q64)).minus (⟨rep 2⟩ : Mat3x1 (Fl Q64))).bind (·.isEqual ⟨rep 8⟩ (dec 1 4)) = some true := by decide +kernel
example : (⟨rep 2⟩ : Mat3x1 (Fl Q64)).magnitude.map (Fl.feq · (Fl.sqrt (dec 2 * dec 2 * dec 3))) = some true := by decide +kernel
example : (⟨rep 2⟩ : Mat3x1 (Fl Q64)).normalize.bind (·.isEqual ⟨Vector.replicate _ (dec 2 / Fl.sqrt (dec 2 * dec 2 * dec 3))⟩ (dec 1 4)) = some true := by
  decide +kernel
example : ((⟨rep 2⟩ : Mat3x1 (Fl Q64)).scale (dec 4)).bind (·.isEqual ⟨rep 8⟩ (dec 1 4)) = some true := by decide +kernel
example : (⟨#v[dec 50 1, dec 53 1, dec 77 1]⟩ : Mat3x1 (Fl Q64)).isEqual ⟨#v[dec 51 1, dec 54 1, dec 78 1]⟩ (dec 1001 4) = some true := by decide +kernel
example : (⟨#v[dec 50 1, dec 53 1, dec 77 1]⟩ : Mat3x1 (Fl Q64)).isEqual ⟨#v[dec 51 1, dec 54 1, dec 78 1]⟩ (dec 999 4) = some false := by decide +kernel

/-! ### test_mat4x1.rs -/
example : (⟨rep 10⟩ : Mat4x1 (Fl Q64)).size = some 4 := rfl
example : ((⟨rep 10⟩ : Mat4x1 (Fl Q64)).mulElem (⟨rep 2⟩ : Mat4x1 (Fl Q64))).bind (·.isEqual ⟨rep 20⟩ (dec 1 4)) = some true := by decide +kernel
example : ((⟨rep 10⟩ : Mat4x1 (Fl Q64)).div (⟨rep 2⟩ : Mat4x1 (Fl Q64))).bind (·.isEqual ⟨rep 5⟩ (dec 1 4)) = some true := by decide +kernel
example : ((⟨rep 10⟩ : Mat4x1 (Fl Q64)).plus (⟨rep 2⟩ : Mat4x1 (Fl Q64))).bind (·.isEqual ⟨rep 12⟩ (dec 1 4)) = some true := by decide +kernel
example : ((⟨rep 10⟩ : Mat4x1 (Fl Q64)).minus (⟨rep 2⟩ : Mat4x1 (Fl Q64))).bind (·.isEqual ⟨rep 8⟩ (dec 1 4)) = some true := by decide +kernel
example : (⟨rep 2⟩ : Mat4x1 (Fl Q64)).magnitude.map (Fl.feq · (Fl.sqrt (dec 2 * dec 2 * dec 4))) = some true := by decide +kernel
example : (⟨rep 2⟩ : Mat4x1 (Fl Q64)).normalize.bind (·.isEqual ⟨Vector.replicate _ (dec 2 / Fl.sqrt (dec 2 * dec 2 * dec 4))⟩ (dec 1 4)) = some true := by
  decide +kernel
example : ((⟨rep 2⟩ : Mat4x1 (Fl Q64)).scale (dec 4)).bind (·.isEqual ⟨rep 8⟩ (dec 1 4)) = some true := by decide +kernel
example : (⟨#v[dec 50 1, dec 53 1, dec 77 1, dec 20]⟩ : Mat4x1 (Fl Q64)).isEqual ⟨#v[dec 51 1, dec 54 1, dec 78 1, dec 199 1]⟩ (dec 1001 4) = some true := by decide +kernel
example : (⟨#v[dec 50 1, dec 53 1, dec 77 1, dec 20]⟩ : Mat4x1 (Fl Q64)).isEqual ⟨#v[dec 51 1, dec 54 1, dec 78 1, dec 199 1]⟩ (dec 999 4) = some false := by decide +kernel

/-! ### test_mat3.rs -/
example : (⟨rep 10, true⟩ : Mat3 (Fl Q64)).size = some 9 := rfl
example : ((⟨rep 10, true⟩ : Mat3 (Fl Q64)).plus (⟨rep 10, true⟩ : Mat3 (Fl Q64))).bind (·.isEqual ⟨rep 20, true⟩ (dec 1 4)) = some true := by decide +kernel
example : (⟨rep 10, true⟩ : Mat3 (Fl Q64)).isEqual (⟨rep 10, false⟩ : Mat3 (Fl Q64)) (dec 1 4) = some false := by decide +kernel
example : ((⟨rep 10, true⟩ : Mat3 (Fl Q64)).minus (⟨rep 7, true⟩ : Mat3 (Fl Q64))).bind (·.isEqual ⟨rep 3, true⟩ (dec 1 4)) = some true := by decide +kernel
example : ((⟨rep 20, true⟩ : Mat3 (Fl Q64)).div (⟨rep 2, true⟩ : Mat3 (Fl Q64))).bind (·.isEqual ⟨rep 10, true⟩ (dec 1 4)) = some true := by decide +kernel
example : (⟨rep 10, true⟩ : Mat3 (Fl Q64)).normalize.bind (·.isEqual ⟨rep 1, true⟩ (dec 1 4)) = some true := by decide +kernel
example : ((⟨rep 10, true⟩ : Mat3 (Fl Q64)).scale (dec 3)).bind (·.isEqual ⟨rep 30, true⟩ (dec 1 4)) = some true := by decide +kernel
example : (⟨rep 10, true⟩ : Mat3 (Fl Q64)).isEqual (⟨rep 10, true⟩ : Mat3 (Fl Q64)) (dec 1 4) = some true := by decide +kernel
example : (⟨rep 10, true⟩ : Mat3 (Fl Q64)).isEqual (⟨rep 1001 2, true⟩ : Mat3 (Fl Q64)) (dec 1 4) = some false := by decide +kernel
example : ((⟨iota 0, true⟩ : Mat3 (Fl Q64)).mul ⟨iota 10, true⟩).toOption.bind (fun r => r.bind
    (·.isEqual ⟨#v[dec 45, dec 48, dec 51, dec 162, dec 174, dec 186, dec 279, dec 300, dec 321], true⟩ (dec 1 4))) = some true := by decide +kernel
example : ((Mat3.init (iota 0) true : Mat3 (Fl Q64)).mulMat3x1 ⟨#v[dec 1, dec 2, dec 3]⟩).bind
    (·.isEqual ⟨#v[dec 8, dec 26, dec 44]⟩ (dec 1 4)) = some true := by decide +kernel
example : ((Mat3.init (iota 0) false : Mat3 (Fl Q64)).mulMat3x1 ⟨#v[dec 1, dec 2, dec 3]⟩).bind
    (·.isEqual ⟨#v[dec 8, dec 26, dec 44]⟩ (dec 1 4)) = some true := by decide +kernel
example : (Mat3.init (iota 0) true : Mat3 (Fl Q64)).transpose.isEqual
    ⟨#v[dec 0, dec 3, dec 6, dec 1, dec 4, dec 7, dec 2, dec 5, dec 8], true⟩ (dec 1 4) = some true := by decide +kernel
example : (Mat3.iden : Mat3 (Fl Q64)).isEqual
    ⟨#v[dec 1, dec 0, dec 0, dec 0, dec 1, dec 0, dec 0, dec 0, dec 1], true⟩ (dec 1 4) = some true := by decide +kernel

/-! ### test_mat4.rs -/
example : (⟨rep 10, true⟩ : Mat4 (Fl Q64)).size = some 16 := rfl
example : ((⟨rep 10, true⟩ : Mat4 (Fl Q64)).plus (⟨rep 10, true⟩ : Mat4 (Fl Q64))).bind (·.isEqual ⟨rep 20, true⟩ (dec 1 4)) = some true := by decide +kernel
example : (⟨rep 10, true⟩ : Mat4 (Fl Q64)).isEqual (⟨rep 10, false⟩ : Mat4 (Fl Q64)) (dec 1 4) = some false := by decide +kernel
example : ((⟨rep 10, true⟩ : Mat4 (Fl Q64)).minus (⟨rep 7, true⟩ : Mat4 (Fl Q64))).bind (·.isEqual ⟨rep 3, true⟩ (dec 1 4)) = some true := by decide +kernel
example : ((⟨rep 20, true⟩ : Mat4 (Fl Q64)).div (⟨rep 2, true⟩ : Mat4 (Fl Q64))).bind (·.isEqual ⟨rep 10, true⟩ (dec 1 4)) = some true := by decide +kernel
example : (⟨rep 10, true⟩ : Mat4 (Fl Q64)).normalize.bind (·.isEqual ⟨rep 1, true⟩ (dec 1 4)) = some true := by decide +kernel
example : ((⟨rep 10, true⟩ : Mat4 (Fl Q64)).scale (dec 3)).bind (·.isEqual ⟨rep 30, true⟩ (dec 1 4)) = some true := by decide +kernel
example : (⟨rep 10, true⟩ : Mat4 (Fl Q64)).isEqual (⟨rep 10, true⟩ : Mat4 (Fl Q64)) (dec 1 4) = some true := by decide +kernel
example : (⟨rep 10, true⟩ : Mat4 (Fl Q64)).isEqual (⟨rep 1001 2, true⟩ : Mat4 (Fl Q64)) (dec 1 4) = some false := by decide +kernel
example : ((⟨iota 1, true⟩ : Mat4 (Fl Q64)).mul ⟨iota 10, true⟩).toOption.bind (fun r => r.bind
    (·.isEqual ⟨#v[dec 180, dec 190, dec 200, dec 210, dec 436, dec 462, dec 488, dec 514, dec 692, dec 734, dec 776, dec 818, dec 948, dec 1006, dec 1064, dec 1122], true⟩ (dec 1 3))) = some true := by decide +kernel
example : ((⟨iota 0, true⟩ : Mat4 (Fl Q64)).mulMat4x1 ⟨#v[dec 1, dec 2, dec 3, dec 4]⟩).bind
    (·.isEqual ⟨#v[dec 20, dec 60, dec 100, dec 140]⟩ (dec 1 4)) = some true := by decide +kernel
example : ((Mat4.init (iota 0) true : Mat4 (Fl Q64)).mulMat4x1 ⟨#v[dec 1, dec 2, dec 3, dec 4]⟩).bind
    (·.isEqual ⟨#v[dec 20, dec 60, dec 100, dec 140]⟩ (dec 1 4)) = some true := by decide +kernel
example : ((⟨#v[dec 0, dec 4, dec 8, dec 12, dec 1, dec 5, dec 9, dec 13, dec 2, dec 6, dec 10, dec 14, dec 3, dec 7, dec 11, dec 15], false⟩ : Mat4 (Fl Q64)).mulMat4x1 ⟨#v[dec 1, dec 2, dec 3, dec 4]⟩).bind
    (·.isEqual ⟨#v[dec 20, dec 60, dec 100, dec 140]⟩ (dec 1 4)) = some true := by decide +kernel
example : ((Mat4.init (iota 0) false : Mat4 (Fl Q64)).mulMat4x1 ⟨#v[dec 1, dec 2, dec 3, dec 4]⟩).bind
    (·.isEqual ⟨#v[dec 20, dec 60, dec 100, dec 140]⟩ (dec 1 4)) = some true := by decide +kernel
example : (Mat4.init (iota 0) true : Mat4 (Fl Q64)).transpose.isEqual
    ⟨#v[dec 0, dec 4, dec 8, dec 12, dec 1, dec 5, dec 9, dec 13, dec 2, dec 6, dec 10, dec 14, dec 3, dec 7, dec 11, dec 15], true⟩ (dec 1 4) = some true := by decide +kernel
example : (Mat4.init (iota 0) true : Mat4 (Fl Q64)).transposeSelf.isEqual
    ⟨#v[dec 0, dec 4, dec 8, dec 12, dec 1, dec 5, dec 9, dec 13, dec 2, dec 6, dec 10, dec 14, dec 3, dec 7, dec 11, dec 15], true⟩ (dec 1 4) = some true := by decide +kernel
example : (Mat4.init (iota 0) false : Mat4 (Fl Q64)).isEqual
    ⟨#v[dec 0, dec 4, dec 8, dec 12, dec 1, dec 5, dec 9, dec 13, dec 2, dec 6, dec 10, dec 14, dec 3, dec 7, dec 11, dec 15], false⟩ (dec 1 4) = some true := by decide +kernel
example : (Mat4.init (iota 0) false : Mat4 (Fl Q64)).transposeSelf.isEqual ⟨iota 0, false⟩ (dec 1 4) = some true := by decide +kernel
example : (Mat4.init (iota 0) true : Mat4 (Fl Q64)).submatMat3.isEqual
    ⟨#v[dec 0, dec 1, dec 2, dec 4, dec 5, dec 6, dec 8, dec 9, dec 10], true⟩ (dec 1 5) = some true := by decide +kernel
example : (Mat4.iden : Mat4 (Fl Q64)).isEqual
    ⟨#v[dec 1, dec 0, dec 0, dec 0, dec 0, dec 1, dec 0, dec 0, dec 0, dec 0, dec 1, dec 0, dec 0, dec 0, dec 0, dec 1], true⟩ (dec 1 4) = some true := by decide +kernel

end Mazth.Conformance.Mats
