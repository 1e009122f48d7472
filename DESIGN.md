# Formal model of `mazth` in Lean 4

Subject: the Rust library in `/repo/lib` (vectors, matrices, quaternions, bounds, shapes, GJK), read as text at the
pinned commit.  The Lean project is `/verif/lean`; build with `lake build`.

## Trusted base

* The Lean 4.33.0 kernel, and Mathlib as installed.  No axioms of our own; every property theorem depends on at
  most `propext`, `Classical.choice`, `Quot.sound`.  No `sorry`, `native_decide`, `bv_decide`.
* The reading of the Rust source: each model definition cites the lines it models.  The code is never run here.
* The meaning of Rust's `f32`/`f64`: IEEE-754 round-to-nearest-even, no fused or extended-precision evaluation
  (see "Floating point" below), NaN payloads not observable.
* `f64::powi(x, 2)` is `x*x` (this is what LLVM emits; the std documentation leaves the precision unspecified).
* The libm functions `sin cos acos atan2 ln powf` are opaque parameters (`class Libm`).  In theorems over `ℝ`
  they are the mathematical functions; in theorems over binary floats they are arbitrary.

## Floating point

`Verif/Float/Fl.lean` defines `Fl K`: NaN, ±∞, −0 or a finite value of an ordered field `K` (`fin 0` is +0), with
all IEEE-754 special cases written out, parametric in a rounding `class Fmt K`.

* `Fmt ℝ` (`Float/Exact.lean`): rounding is the identity.  This is "exact arithmetic with IEEE special values": the
  *same model code* runs over it, so a NaN produced by `0/0` or an infinite bound is still visible.
* `BinQ p emin emax` over `ℚ` (`Float/Binary.lean`): executable binary rounding to nearest-even with gradual underflow
  and overflow; `Q64` is binary64, `Q32` is binary32.  The rounding was compared outside the project with the
  hardware floats on 60000 random pairs of operands for seven operations and the comparisons (no mismatch); that is
  a test of the model, not a proof.
* `Float/RndErr.lean`: the standard error model (unit roundoff `u`, underflow `eta`, normal threshold `nu`, exact sums below it,
  accurate square root), proved for every binary format with `emin ≤ -2p`, in particular f32 and f64.
* `Float/Lawful.lean`, `Float/BinaryLawful.lean`, `Float/ExactOps.lean`: the laws (monotone, odd, exact on representables, …) that both instances satisfy, so theorems "for all
  floats" are proved once for every lawful format and hence hold for f32, f64 and exact arithmetic.

Four kinds of theorems: (1) *parametric* ones about data movement, for any scalar type; (2) *bit-exact* ones for any
`Fmt`/`LawfulFmt`; (3) *exact* ones over `Fl ℝ`, stated against Mathlib objects (`Matrix`, `crossProduct`, `Quaternion`, …);
(4) *rounding-error* ones for binary formats.  What (3) says about the real code is the behaviour up to rounding; the
rounding error itself is only covered where a (4) theorem says so.

## Modelled code

| file | modelled | not modelled |
|---|---|---|
| `mat.rs` | all of Mat2x1, Mat1x2, Mat3x1, Mat1x3, Mat4x1, Mat1x4, Mat3, Mat4 | `Debug`, `Clone` derives |
| `quat.rs` | all functions of `Quat` | `Debug` derive |
| `dualquat.rs` | `DualQuat` and its only function `init` (Model/Quat.lean) | `Debug`, `Clone` derives |
| `bound.rs` | `AxisAlignedBBox` completely; `bound_sphere.rs`: methods that panic | trait object plumbing (an inductive type) |
| `point.rs ray.rs sphere.rs plane.rs rbox.rs line.rs triprism.rs` | constructors, data, bounds, `get_intersect`, `get_support`, vicinity | |
| `intersect_gjk.rs` | all | |
| `i_bound.rs i_shape.rs i_vicinity.rs i_comparable.rs` | the traits' methods, as functions on `Bound` and `Shape` | |
| `i_intersect.rs`, `surf_interact.rs`, `mod.rs` | nothing: a trait without implementations, a commented-out struct, module list | |
| `test/*.rs` | not modelled | |

Representation choices
* `[T; n]` → `Vector α n`; `for i in 0..n` → `loop n`, a fold; `&mut self` → returned value.
* panics → `Res = Except Panic`; Rust `Option` stays `Option`; `.unwrap()`/`assert!`/index → monadic.
* `&dyn IShape` → inductive `Shape`; dynamic double dispatch → fuel-indexed function with a theorem that fuel 2 is
  always enough; the GJK loop → fuel-indexed, theorems for every fuel.
* u64 indices are `UInt64`; `as usize` is the identity (64-bit target); a flag selects debug (overflow panics) or
  release (wrap) arithmetic.

## Conformance of the model

`Verif/Conformance/*.lean` runs the assertions of the crate's own 21 test files on the model, in the executable binary64 (quaternions:
binary32) format, evaluated by the kernel.  All hold.  They are evidence that the model matches the code, nothing more: no
property theorem uses them, and no property is claimed on their strength.  Two simplifications: of the 1000 iterations of
`test_intersect_gjk_shape_support` 64 are kept, and the quaternion test reads `sin`, `cos`, `acos` from a table of correctly
rounded results.

## Per property

`Verif/Props/*.lean` holds the property theorems, helper lemmas live in `Verif/Proofs/*`, the independent specifications in
`Verif/Spec/*`.  `AXIOMS.txt` lists the axioms of each property theorem (output of `#print axioms`).  Equalities between a
model expression and its evaluated form are closed by `kernel_rfl` (`Proofs/Tactic.lean`), which hands `rfl` to the kernel
without elaborator unfolding; concrete float computations by `decide +kernel`.  Both are checked by the kernel alone.  Every theorem has an `example` next to it showing a concrete non-trivial case.

* **C01** Constructor layout is transparent: parametric in the scalar; case split on the flag, arrays destructured.
* **C02** Element access is a faithful, bounds-checked store: `UInt64` index arithmetic; get/set law; panic characterisation for both build modes.
* **C03** Transpose swaps indices and is an involution: parametric; the literal Rust loops are evaluated symbolically.
* **C04** Matrix product is the mathematical product: `Fl ℝ` against `Matrix.mul`; the assertion as a panic.
* **C05** Results do not depend on storage layout, bit for bit: any `Fmt`: relation "same logical entries" is preserved by each operation.
* **C06** Matrix-vector products: `Fl ℝ` against `Matrix.mulVec`/`vecMul`; bit-exact duality for any `Fmt`.
* **C07** Element-wise matrix operations act on logical entries: any `Fmt`; witness for mixed layouts.
* **C08** Trace: any `Fmt` for layout/transposition; `Fl ℝ` against `Matrix.trace`.
* **C09** Dot and cross product laws: any `Fmt` symmetric; `Fl ℝ` against `dotProduct`/`crossProduct`.
* **C10** Magnitude is the Euclidean norm: `Fl ℝ` against `Real.sqrt (v ⬝ᵥ v)`; sign for any lawful format.
* **C11** Normalisation gives unit vectors: `Fl ℝ`; the zero vector for any lawful format.
* **C12** Tolerance comparison: `Fl ℝ` for the characterisation; lawful formats for reflexivity / NaN / monotonicity.
* **C13** Mat4::inverse inverts: `Fl ℝ` against `Matrix.det`, `Matrix.inv`. Code returns the transposed inverse: negation + partial.
* **C14** Mat3::inverse inverts: same; code is wrong: negation + exact characterisation of what is returned as partial.
* **C15** Homogeneous normalisation and scaling of matrices: any `Fmt`.
* **C16** Upper-left block extraction: parametric.
* **C17** Quaternion product is Hamilton's: `Fl ℝ` against Mathlib `Quaternion ℝ`.
* **C18** Quaternion inverse: `Fl ℝ` against `Quaternion` inverse.
* **C19** Quaternion normalisation: panic iff for any `Fmt`; unit norm over `ℝ`.
* **C20** rotate_vector is a rotation: `Fl ℝ` against `q * v * star q` and `crossProduct`.
* **C21** Rotation matrix agrees with rotate_vector: `Fl ℝ`, `Matrix.mulVec`, `det`.
* **C22** Rotation/translation matrices are the same for both layouts: negation + exact relation (transposes) as partial.
* **C23** Axis-angle construction: `Fl ℝ` against Rodrigues' formula.
* **C24** Axis-angle round trip: `Fl ℝ`, real acos/atan.
* **C25** Linear interpolation: `Fl ℝ`.
* **C26** Spherical interpolation: `Fl ℝ`; unit norm false for obtuse inputs: negation + partial.
* **C27** Quaternion power: `Fl ℝ`.
* **C28** Quaternion logarithm: negation + panic characterisation as partial.
* **C29** Implicit-w construction: `Fl ℝ`.
* **C30** Translation matrix translates: negation + exact description of what the matrix does.
* **C31** Plane reflection and components: `Fl ℝ`.
* **C32** Bounding-box overlap test is exact: any format with ±∞ (comparisons only): spec in extended order.
* **C33** Union of bounds is the least enclosing box: any format; lists of any length.
* **C34** Longest axis: negation + what is always returned.
* **C35** Centroid: `Fl ℝ` and lawful formats.
* **C36** Bounds enclose shapes: `Fl ℝ` (with infinite extents) against point sets.
* **C37** Intersection queries are symmetric and terminate: any `Fmt`.
* **C38** Answer shape consistency: any `Fmt`.
* **C39** Point-point: any lawful `Fmt`.
* **C40** Sphere-sphere: `Fl ℝ` against Euclidean balls.
* **C41** Sphere-point: `Fl ℝ`.
* **C42** Ray-sphere: `Fl ℝ`.
* **C43** Ray-plane: `Fl ℝ`.
* **C44** Sphere-plane: `Fl ℝ`.
* **C45** Plane-point: `Fl ℝ`.
* **C46** Box-point: any lawful `Fmt`, `Fl ℝ`.
* **C47** Ray-point: `Fl ℝ`.
* **C48** Ray-ray: `Fl ℝ` + witness.
* **C49** Prism-point: `Fl ℝ` against `convexHull`.
* **C50** Prism-segment: `Fl ℝ` against segments and `convexHull`.
* **C51** Support points: `Fl ℝ`.
* **C52** GJK query: `Fl ℝ`, every fuel; touching spheres and the binary64 failures in `Props/GjkTouch.lean`.
* **C53** Vicinity: lawful `Fmt` and `Fl ℝ`.
* **C54** Vector arithmetic: any `Fmt` and `Fl ℝ`.
* **C55** Floating-point accuracy of dot, magnitude and normalisation: binary formats, standard model of rounding error derived from the executable rounding.
* **C56** Finite floats: negation, conjugation, construction are exact: lawful formats.
* **C57** Constructors: panics and round trip: any `Fmt`, slices of every length.
* **C58** Floating-point accuracy of products: `RndErr` formats; a calculus of forward errors (`Proofs/Appr.lean`) that follows the shape of the expression.
* **C59** Floating-point accuracy of quaternion length and normalisation: as C55.
* **C60** Bounding boxes survive rounding: a shape is `MadeIn φ S` when its constructor was given finite floats describing the exact real point set `S` (`Spec/ShapesFloat.lean`; a ray or plane by its stored unit vector, a prism by its stored vertices); monotone rounding is all that is used.
* **C61** Sphere-sphere query in floating point: forward errors of the distance, of the sum of radii and of the location, passed to ℝ along a strictly monotone ring map.
* **C62** Building and reading bounds: case analysis on the kind and on the length of the slice; the 32-slot array is computed symbolically.
* **C63** Plane-point and sphere-plane queries in floating point: margins and location: forward errors of the difference of two dot products with an approximately normalised normal; the comparison of the difference with the tolerance is exact (rounding keeps the sign of a sum); `Proofs/Lim.lean` keeps track of ranges.
* **C64** Box-point and sphere-point queries in floating point: rejection: monotone rounding excludes overflow on the rejecting side; then the relative error of one addition.
* **C65** The ray-plane query in floating point: decision margins and location error: forward error analysis of the whole chain constructor - dot products - quotient - location, in a generic binary format, with the f64 constants.
* **C66** The ray-sphere query in floating point: decision margins and location error: forward error analysis of projection, power, discriminant, root and location; the pre-test is covered by C60.
* **C67** Rotating with a normalised quaternion in floating point: error bounds for the sandwich product and the rotation matrix: forward error analysis of normalisation, two quaternion products and the matrix entries against Mathlib's quaternions over the reals.
* **C68** Rounding accuracy of the vector and matrix operations of every type: per-component error and finiteness statements through the public accessors, one proof for all types by the left-to-right sum.
* **C69** Degenerate shapes: what the queries answer: NaN-propagation lemmas for the vector operations, then each query collapsed; the statements mention only the public constructors and get_intersect.
* **C70** NaN arguments: what the queries answer: same NaN-propagation lemmas; C70_bound states the bound test in terms of le and NaN.
* **C71** Matrix inverse in floating point: decision and accuracy: running error analysis of the 24-term determinant and the cofactors with the Appr calculus, then the division; statement uses Mathlib's det and matrix inverse.
* **C72** What the tolerance of a shape influences: the dispatch collapsed to `core` and compared field by field; monotonicity from C53_mono extended to infinite first arguments.
* **C73** Growing a ball or a cube keeps every hit: bounds grow by monotone rounding (`overlap_mono`); the tests of the narrow phase are monotone in the radius by `add_lt_mono`, `sub_lt_mono`, `disc_lt_mono`.
* **C74** Symmetries that survive rounding: equality up to the sign of zero (`Fl.Same`) is a congruence for +, -, *; negation commutes with *, / exactly and with +, - up to `Same`.
* **C75** Moving everything moves the answer: each shape built from moved arguments is the moved shape (`Ctor.made`), and every query body commutes with moving (`getIntersect_mv`), by cancellation in differences.
* **C76** Mirroring everything mirrors the answer, also with rounding: sign flips commute with rounding, so every operation maps mirrored operands to mirrored results up to the signs of zeros (`V3.Mir`, `AABB.Mir`); cross products pick up the parity of the pattern.
* **C77** Support points in floating point are furthest up to rounding: `max_by` over rounded inner products returns the last largest computed one (`furthest_spec`); each inner product is off by at most `7/2·u·R‖V‖₁ + 4 eta` (`dotp_err`).
* **C78** Prism against point in floating point: right outside a rounding margin: the computed normal is within `150 u κ h` of `h` times the exact unit normal (`PrismData.normal`); each half-space test then has the right sign outside the margin (`PrismData.signs`), and a point inside the margin passes the bounding box test because the exact prism contains its neighbours at distance `150 u κ h` along each axis (`PrismData.in_box`).
* **C79** Prism against segment in floating point: the end points are tested as in C78 (`C79_ends`).  A hit of the facet loop is `t d + o` with the direction `d` normalised by the ray constructor, and passes `|loc - a| ≤ |b - a|` in rounded arithmetic, which puts it within `80 u M` of the segment (`seg_hit`, `C79_sound_partial`).  The re-check of the hit against its own facet is a coin toss, so crossings are missed (`C79_crossing_false`); a parameter that overflows gives a NaN location which passes every check (`C79_nan_false`).
* **C80** Ray against point in floating point: margins and location: some component of the unit direction is at least 0.57, so that quotient is finite; the tolerance tests pass finiteness on to its neighbours (`step_left`, `step_right`, `rayPoint_accept`), and each coordinate of the point then agrees with the ray at the first parameter (`raypoint_real`, `C80_sound`).  Conversely the computed quotients are within `56 u M` of the exact ones (`quotient_real`, `C80_finds`).
* **C81** Ray against ray in floating point: margins and location: the computed cross products, magnitudes and dot product are compared with the exact ones (`cross_dirs`, `cross_offset`, `offset_cross`, `offset_dot`, `mag_float`); the cut-off test is decided outside a band of `40 u` (`eqv_small`, `eqv_big`), the coplanarity test always succeeds (`coplanar_float`), and the parameter of either branch is then within a multiple of `u` of the exact one (`param_float`, `quotient_par`).  `along_float` turns that into a bound on the location.
* **C82** GJK on two spheres in binary64: no panic, and Some(false) only for balls apart up to rounding: loop invariant: every vertex of the simplex is a multiple of `2^-146` per coordinate and at most `2^35`, every search direction is a nonzero multiple of `2^-438` and at most `2^115`, and both vanish on axes where both centres do (`Vec`, `gjk_loop`).  Rounding keeps multiples of a power of two (`Gr.rnd`, Proofs/Grid.lean), so a direction is never small enough to underflow (`coord_gr`, `Vec.triple`).  Each support point is then accurate (`support_float`, from C77), and a computed inner product that is not positive separates the balls up to `128 u M` (`margin_float`).
* **C83** GJK on two disjoint spheres in binary64: the loop need not end: the first fourteen turns are computed in the model by kernel evaluation (`run_83`).  They lead into a set of states `Orb`: the simplex keeps the first vertex `p83`, the slope of the direction against the first axis is `-1/3` up to `1/20`, the edge to the other vertex has first coordinate `2/3` up to `1/20` (in units of the radius) and is orthogonal to the direction up to `10^-6`.  One rounded turn maps `Orb` to itself and takes the third branch of `contains_minkowski_origin` again (`orb_step`): the exact map contracts both slopes (`slope_real`) and the rounding errors (`triple_real`, `dot_real`, `gjk_support`) are far below the margins.
* **C84** GJK on two spheres: the number of turns: the height of the arc over the current edge at least halves each turn (`Edge.halve`) and starts at most `2R`; once it is below `min R (g/2)` at most two more turns follow (`loop_stops`).
* **C85** Turning and rescaling everything turns and rescales the answer: `Simil` is a linear map that preserves inner products with a factor and a translation; `C85_quat` produces one from the crate's `rotate_vector`.  The point sets of the specification are mapped to each other (`mem_ball`, `mem_ray`, `mem_plane`, `mem_segment`, `mem_prism`), so the decisions follow from C39-C50; the location is pinned down by uniqueness arguments (`ray_eq`, `exit_eq`, `segment_eq`) or by the explicit formula.
* **C86** Quaternion inverse, interpolation, plane components and box centroid carry only rounding error: running error calculus of C55/C58 (`Appr`, `Near`, `Lim`); u, eta, nu and omega are the constants of C55_constants.
* **C87** Axis-angle conversion carries only rounding error and the library's error: error model of C55; the exact values are `axisQ` and Rodrigues' formula of C23; `AccLibm K φ δ` states what is assumed about sin, cos, acos, atan2 and π.
* **C88** Spherical interpolation carries only rounding error and the library's error: error model of C55, accuracy hypothesis of C87; the exact value is the spherical combination with weights `arcW`.
* **C89** Quaternion powers carry only rounding error and the library's error, except near the real axis: `pow` in floating point given accurate `sin`, `cos`, `acos`, `powf` (`AccPow`, Props/FloatPow.lean): relative error `(5+2|x|)δ + (75|x|/s+20)u`, `s` the relative length of the vector part; `C89_small_angle_false` shows that `1 + 2^-30 i` loses its vector part under `pow(1)` in binary64.
* **C90** Long chains of quaternion products and rotations in floating point: running products and repeated rotations over lists of any length (Props/FloatChain.lean): linear error growth; `p.mul(q).normalize()` keeps length one up to `8u` for ever (a normalisation lemma without the no-underflow hypothesis of C59); `C90_drift_false`: multiplying by `1 + 8u` again and again exceeds every bound.
* **C91** GJK on two spheres in binary64: deep overlaps are found in two turns; spheres clearly apart may be reported as intersecting: deep overlaps (Props/FloatGjkDeep.lean): the first two support points are opposite along the first axis and agree bit for bit in the other coordinates, so the first normal is at least 60° off the axis (`first_normal`), and both triangle tests on the third support point have exact value at most `-R^4/20` (`tri_neg`) against a rounding error of `256u(6R)^4` (`triple_float`). `C91_separated_false`: spheres apart by more than four times the sum of the radii reported as intersecting.
* **C92** Changing the unit by a power of two changes every algebraic result by exactly that power, bit for bit: Proofs/Scale2.lean shows that rounding commutes with a shift of the exponent as long as the value is a multiple of a power of two that stays above the smallest subnormal and does not overflow; Proofs/Scale2Sc.lean tracks the grid exponent `e` and the bound `b` of a number through every operation (`Fl.Sc e b m x x'`), so that each range condition is an integer inequality closed by `omega`. Infinities and NaN are carried along. `Fl.scale2` (times `2^k`, exactly) is the specification.
* **C93** In a unit of length that differs by a power of two every intersection query gives the same answer, bit for bit: same tracking of ranges as C92, carried through the constructors, the bounds and every branch of the queries (`PSQ.ShapeSc`); unit vectors are bit-identical in all units, and the minima and maxima of the bounds commute with the shift even for NaN.
* **C94** In a unit of length that differs by a power of two the collision query of two spheres takes the same course, turn by turn: each coordinate of a support point lies on a fixed grid however small the coordinate of the direction (`GjkScale.coord_gr`: a small step is absorbed by the centre that is off the origin, a large one is on the grid by itself), so ranges do not degrade from turn to turn; coordinates where both centres are zero stay zero.
* **C95** Turning everything by a quarter about the z axis turns the answer, bit for bit: the relation is that of C76 after exchanging two coordinates (`V3.Trn`), so that only commutation of the exchange with sums of two products and with cross products is new.
* **C96** The collision query of mirrored spheres takes the same course, but not in the first axis: the loop is followed for any two pairs whose support points are mirrored (`GjkMirror.SupMir`, `loop_mir`); the search directions are triple products and so mirrored like vectors, whatever the orientation.
* **C97** Spheres one beside the other along the first axis: the f64 collision query is decided by their order: only the first turn of the loop runs; the second and third coordinates of both corners are zeros, so the triple product is zero and the code takes the origin to lie on the segment. No rounding can lose the order of two different floats: both lie on the grid `2^-1074`.
* **C98** Long chains of matrix products and of matrices applied to a vector in floating point: each row of the running product is a row vector multiplied by one matrix after the other, and orthogonal matrices keep the length of rows, so errors only add up (`MatChain.row_step`). The chain itself (`MatTy.chain`, `MatTy.applyAll`) is the caller's loop, a fold of the modelled `mul` and `mul_mat3x1`/`mul_mat4x1`.
* **C99** Laws of the spherical interpolation in exact arithmetic: the result is a combination of the two ends whose coefficients depend on their inner product only, which unit factors keep; for an arc it is the point of the great circle at the angle t w, and the addition theorems give subdivision.
* **C100** Undoing a rotation: composes the rotation matrix (C21), the transposed inverse computed by `Mat4::inverse` (C13) and the chain bound (C98); the inverse is right exactly if the square of the rotation is the identity, which the trace decides.
* **C101** Rigid motions: rotating with rotate_vector and translating with plus: extends the chain of rotations (C90) by a rounded sum per step; the orbit of the exact motions stays within the sum of all lengths, which is what the error is measured by.
* **C102** Unions of unions of bounds: a bounding volume hierarchy: an inductive relation lists the boxes at the leaves and the box at the root of a tree of get_union calls; induction on it with C33.
* **C103** Laws of Mat4::inverse: from C13 (the result holds the transposed inverse) and the algebra of matrices in Mathlib.
* **C104** A reported location put to the point queries of the same shapes: from C40-C50 (what each query reports) and C63, C65 (its error in binary64); the default tolerance 1e-6 of the plane absorbs the error.
* **C105** Reflections compose to rotations, and rays reflect along shortest ways: algebra of pure quaternions; C105_shortest from C43 and the mirror image of the start; the rounded laws from the negation symmetry of the operations and C67.
* **C106** The two collision queries on spheres agree: from the soundness and turn bounds of the loop (C52, C84, C82) and the characterisations of the direct query (C40, C61); the margins of the two binary64 theorems are compared.
* **C107** The computed inverse of a rotation matrix, in binary64: perturbation of the determinant (four rows replaced one at a time) and of the solution of A c = e near an orthogonal matrix, with the error bound of C71 and the chains of C98.
* **C108** Searching through a hierarchy of bounds finds exactly what querying every shape finds: the search and the scan are programs over the modelled API (defined beside the theorems); induction over the tree with C102 and the bound test every query starts with.
* **C109** Following a ray through a scene finds what it meets first: the program is defined beside the theorems over the modelled API; the specification speaks of the point sets of the surfaces only (`Surface`). Induction over the scene, with C42 and C43 for one query and C108 for the hierarchy.
* **C110** Following a ray through a scene, in binary64: C66 and C65 for one query, the rounding bound of the computed distance, and an induction over the scene with the computed distance as the invariant.
* **C111** A convex quadrilateral split into two prisms: the crossing of the diagonals makes the two cross products positive multiples of each other, so both halves get the same unit normal; a convex combination of four vertices is reduced to three along the diagonal relation; then C49 and C50 for one prism. The f64 witness is evaluated by the kernel.
* **C112** A viewing frame from a direction and an upward vector: a spec of the view (structure Looks) that does not mention cross products; the rows are recovered from it with the adjugate, which gives uniqueness. The f64 bound adds the rounding of normalize (C55), of cross (C58), and the perturbation of a unit vector.
* **C113** A moving ball first touches where the ray meets the grown obstacle: from C40, C42, C43 and C44; the only common point follows from the equality case of the triangle inequality. The binary64 failure is computed by the kernel.
* **C114** Cutting a prism into smaller prisms: the prism as weights of its base vertices and a height; the part of a point is the one whose left-out vertex has the smallest weight relative to the inner point. Queries through C49 and C50.
* **C115** Cutting a segment, and bisecting it, against a prism: the client is an inductive relation whose steps are answers of the query; an invariant places the first common point within the narrowed segment. Queries through C50.
* **C116** The bounds of a moved ball or box lose no hit, with rounding: rounding keeps the order of sums (from the monotonicity lemmas of C73), so the bounds in between are within the union (C102), and the pre-test of every query (Dispatch) does the rest.
* **C117** Line of sight past a ball is mutual, past a plane it is not: from C42 and C43; the binary64 failure is computed by the kernel.
* **C118** A ball moving through a scene is stopped by the right obstacle at the right place: from C109 (nearest hit in a list) and C113 (one obstacle); in exact arithmetic only.
* **C119** What a sphere of negative radius answers: from the exact sphere-sphere and sphere-plane branches, with the inverted box; the ray witness is computed by the kernel.
* **C120** Support points of shapes of negative size: as C51, without the sign condition.

## Disagreements between code and property

Where the code violates the property, the negation is proved with a concrete witness (theorem names ending in `_false`) and
the part that does hold is proved as `_partial`.
