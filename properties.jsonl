{"id": "C01", "title": "Constructor layout is transparent", "statement": "For Mat3 and Mat4, init(arr, row_major).index(i, j) is arr[i*n + j] for every in-range i, j, whichever row_major flag is passed; default() is the zero matrix and iden() has ones exactly on the diagonal.", "quantifier": "every 9/16-element array of any scalar (incl. NaN/inf), both flags, all in-range (i,j)", "why_tests_cant": "tests fix a few literal arrays; the index permutation must be right for every entry and both flags", "anchors": ["lib/mat.rs:Mat3::init,Mat3::index,Mat4::init,Mat4::index,iden,default"]}
{"id": "C02", "title": "Element access is a faithful, bounds-checked store", "statement": "Writing through index_mut(i,j) and reading index(i',j') returns the written value when (i,j)=(i',j') and the old value otherwise (in range, either layout). An access panics exactly when the flattened position is outside the array (or, with overflow checks, the position computation overflows 64 bits); it never reads out of bounds. An out-of-range column with an in-range flattened position is NOT rejected. size() is the number of entries that can be accessed.", "quantifier": "all matrices, all u64 index pairs, both layouts, debug and release builds", "why_tests_cant": "u64 index pairs are unbounded for testing; wrap-around cases need modular reasoning", "anchors": ["lib/mat.rs:Mat3::index,Mat3::index_mut,Mat4::index,Mat4::index_mut", "lib/mat.rs:945-947", "lib/mat.rs:1265-1267"]}
{"id": "C03", "title": "Transpose swaps indices and is an involution", "statement": "transpose() has index(i,j) equal to the original index(j,i) in both layouts; transposing twice gives back the identical matrix; transpose_self has the same effect in place; the layout flag is unchanged. Row/column vector transposes round-trip.", "quantifier": "all matrices over any scalar (bit exact), both layouts", "why_tests_cant": "index shuffles with hand-coded branches; must hold for all entries", "anchors": ["lib/mat.rs:Mat3::transpose,Mat3::transpose_self,Mat4::transpose,Mat4::transpose_self,Mat3x1::transpose,Mat1x3::transpose"]}
{"id": "C04", "title": "Matrix product is the mathematical product", "statement": "a.mul(b) panics exactly when the two layout flags differ; otherwise it is Some(m) with m's logical matrix equal to the product of the logical matrices (exact arithmetic), for row-major and column-major alike; consequently the product is associative and iden() is neutral.", "quantifier": "all finite real 3x3 / 4x4 matrices, both layouts", "why_tests_cant": "universally quantified algebraic law", "anchors": ["lib/mat.rs:Mat3::mul,Mat4::mul"]}
{"id": "C05", "title": "Results do not depend on storage layout, bit for bit", "statement": "Storing the same logical matrices row-major or column-major gives bit-identical logical results for mul, mul_mat3x1/4x1, mul_mat3x3/4x4, transpose, scale, submat_mat3, including NaN, infinities and rounding.", "quantifier": "all float inputs of any IEEE format (f32, f64)", "why_tests_cant": "bit-exactness over the whole float domain cannot be sampled", "anchors": ["lib/mat.rs:Mat3::mul,Mat4::mul,mul_mat3x1,mul_mat4x1,mul_mat3x3,mul_mat4x4,submat_mat3"]}
{"id": "C06", "title": "Matrix-vector products", "statement": "m.mul_mat3x1(v) (mul_mat4x1) is the matrix-vector product and v.mul_mat3x3(m) (mul_mat4x4) the vector-matrix product, so (A*B)v = A(Bv) exactly, and vM equals (transpose(M) * transpose(v)) bit for bit in floats.", "quantifier": "all finite reals (algebra), all floats (bit-exact duality)", "why_tests_cant": "algebraic law over all inputs", "anchors": ["lib/mat.rs:Mat3::mul_mat3x1,Mat4::mul_mat4x1,Mat1x3::mul_mat3x3,Mat1x4::mul_mat4x4"]}
{"id": "C07", "title": "Element-wise matrix operations act on logical entries", "statement": "plus, minus, mul_elem, div of two matrices and scale act entry by entry on the logical (i,j) entries whenever both operands have the same layout; the result keeps self's layout. (With different layouts the result silently mixes (i,j) and (j,i) entries.)", "quantifier": "all matrices over any float, all (i,j)", "why_tests_cant": "all entries, all values; mixed layout is silent, not a panic", "anchors": ["lib/mat.rs:Mat3::plus,Mat3::minus,Mat3::mul_elem,Mat3::div,Mat3::scale,Mat4::plus"]}
{"id": "C08", "title": "Trace", "statement": "trace() is the sum of the logical diagonal in either layout, is invariant under transpose bit for bit, and trace(AB) = trace(BA) in exact arithmetic.", "quantifier": "all matrices", "why_tests_cant": "universally quantified law", "anchors": ["lib/mat.rs:Mat3::trace,Mat4::trace"]}
{"id": "C09", "title": "Dot and cross product laws", "statement": "dot is symmetric bit for bit on all floats and is the Euclidean inner product in exact arithmetic; cross(a,b) is orthogonal to a and b, anti-symmetric, satisfies Lagrange's identity |a x b|^2 = |a|^2|b|^2 - (a.b)^2; cross is None on 2- and 4-vectors and on matrices, dot is None on matrices.", "quantifier": "all float vectors (symmetry), all real vectors (algebra)", "why_tests_cant": "laws over a continuous domain", "anchors": ["lib/mat.rs:Mat3x1::dot,Mat3x1::cross,Mat2x1::cross,Mat4x1::cross"]}
{"id": "C10", "title": "Magnitude is the Euclidean norm", "statement": "magnitude() is Some(sqrt of the sum of squares); in exact arithmetic it is >= 0, zero iff the vector is zero, scales by |s|, and obeys the triangle inequality; on any floats it is never negative. On a matrix, magnitude() panics.", "quantifier": "all vectors", "why_tests_cant": "continuous domain", "anchors": ["lib/mat.rs:Mat2x1::magnitude,Mat3x1::magnitude,Mat4x1::magnitude", "lib/mat.rs:1078-1080", "lib/mat.rs:1430-1432"]}
{"id": "C11", "title": "Normalisation gives unit vectors", "statement": "normalize() of a non-zero real vector has magnitude exactly 1, is a positive multiple of the input, and is idempotent; on a zero vector it silently returns Some(all NaN) rather than None (any float format).", "quantifier": "all vectors", "why_tests_cant": "continuous domain plus degenerate input", "anchors": ["lib/mat.rs:Mat2x1::normalize,Mat3x1::normalize,Mat4x1::normalize"]}
{"id": "C12", "title": "Tolerance comparison", "statement": "is_equal(a,b,e) is Some(true) exactly when every component differs by at most e (exact arithmetic) and layouts agree; it is reflexive for e >= 0 and NaN-free finite data in floats, symmetric in exact arithmetic, monotone in e, and false as soon as any component is NaN.", "quantifier": "all vectors/matrices, all tolerances", "why_tests_cant": "universally quantified", "anchors": ["lib/mat.rs:IComparableError::is_equal for Mat2x1..Mat4"]}
{"id": "C13", "title": "Mat4::inverse inverts", "statement": "Mat4::inverse returns None exactly when |det| < EPSILON, else Some of a matrix whose product with the input is the identity. (The shipped code returns the transpose of the inverse.)", "quantifier": "all real 4x4 matrices, both layouts", "why_tests_cant": "needs polynomial identities over 16 variables; the repo has no test of inverse at all", "anchors": ["lib/mat.rs:Mat4::inverse"]}
{"id": "C14", "title": "Mat3::inverse inverts", "statement": "Mat3::inverse returns None only for (near-)singular matrices and otherwise Some of the inverse. (The shipped code fails this even for the identity matrix.)", "quantifier": "all real 3x3 matrices", "why_tests_cant": "polynomial identity in 9 variables; no test covers inverse", "anchors": ["lib/mat.rs:Mat3::inverse"]}
{"id": "C15", "title": "Homogeneous normalisation and scaling of matrices", "statement": "Mat3/Mat4::normalize divides every entry by the last one (so the last becomes 1 when non-zero finite); scale multiplies every entry; both keep the layout.", "quantifier": "all float matrices", "why_tests_cant": "in-place loop aliasing (the divisor is itself overwritten) must not corrupt later entries", "anchors": ["lib/mat.rs:Mat3::normalize,Mat4::normalize,Mat3::scale,Mat4::scale"]}
{"id": "C16", "title": "Upper-left block extraction", "statement": "Mat4::submat_mat3().index(i,j) = index(i,j) for i,j<3 in both layouts, keeping the layout flag.", "quantifier": "all matrices over any scalar, both layouts", "why_tests_cant": "test covers one literal", "anchors": ["lib/mat.rs:Mat4::submat_mat3"]}
{"id": "C17", "title": "Quaternion product is Hamilton's", "statement": "mul is Hamilton's quaternion product: associative, identity init() neutral, |pq| = |p||q|, conjugate(pq) = conjugate(q)conjugate(p), distributes over add/minus.", "quantifier": "all real quaternions", "why_tests_cant": "polynomial identities", "anchors": ["lib/quat.rs:Quat::mul,Quat::conjugate,Quat::add,Quat::minus,Quat::length"]}
{"id": "C18", "title": "Quaternion inverse", "statement": "inverse() panics exactly for the zero quaternion and otherwise q*q^-1 = q^-1*q = 1.", "quantifier": "all real quaternions", "why_tests_cant": "continuous domain and panic boundary", "anchors": ["lib/quat.rs:Quat::inverse"]}
{"id": "C19", "title": "Quaternion normalisation", "statement": "normalize() (and init_from_vals_normalize) panics exactly when the computed length is 0 or NaN and otherwise, in exact arithmetic, returns a unit quaternion that is a positive multiple of the input.", "quantifier": "all float quaternions (panic), all real quaternions", "why_tests_cant": "panic boundary over all floats", "anchors": ["lib/quat.rs:Quat::normalize,Quat::init_from_vals_normalize"]}
{"id": "C20", "title": "rotate_vector is a rotation", "statement": "for a unit quaternion rotate_vector is linear, preserves lengths, inner products and cross products (so orientation); q and -q rotate identically; rotating by p*q is rotating by q then by p; rotating by the inverse undoes it; identity leaves vectors unchanged.", "quantifier": "all unit quaternions and real vectors", "why_tests_cant": "continuous domain", "anchors": ["lib/quat.rs:Quat::rotate_vector"]}
{"id": "C21", "title": "Rotation matrix agrees with rotate_vector", "statement": "to_rotation_matrix(true) applied to (p,1) gives (rotate_vector(p),1); it is orthogonal with determinant 1.", "quantifier": "all unit quaternions, all real p", "why_tests_cant": "continuous domain; repo tests a single 90 degree rotation", "anchors": ["lib/quat.rs:Quat::to_rotation_matrix,Quat::rotate_vector", "lib/mat.rs:Mat4::mul_mat4x1"]}
{"id": "C22", "title": "Rotation/translation matrices are the same for both layouts", "statement": "to_rotation_matrix(true) and (false) denote the same logical matrix. (False in the shipped code: the column-major one is the transpose, i.e. the inverse rotation; likewise to_translation_matrix.)", "quantifier": "all quaternions", "why_tests_cant": "needs reasoning about every entry in both layouts; tests only use row-major", "anchors": ["lib/quat.rs:Quat::to_rotation_matrix,Quat::to_translation_matrix", "lib/mat.rs:Mat4::init"]}
{"id": "C23", "title": "Axis-angle construction", "statement": "init_from_axis_angle_radian/degree of a non-zero axis yields a unit quaternion whose rotation fixes the axis and satisfies Rodrigues' formula for that angle; degree = radian*180/pi; composing angles about one axis adds them.", "quantifier": "all non-zero real axes, all real angles", "why_tests_cant": "continuous domain", "anchors": ["lib/quat.rs:Quat::init_from_axis_angle_radian,Quat::init_from_axis_angle_degree"]}
{"id": "C24", "title": "Axis-angle round trip", "statement": "for angle in (0,2pi) away from the degenerate cut-off, to_axis_angle(init_from_axis_angle_radian(axis, angle)) = (axis/|axis|, angle); conversely rebuilding from to_axis_angle of a unit quaternion above the cut-off gives it back; below the cut-off it returns axis x and angle 0.", "quantifier": "all axes and angles in range / all unit quaternions", "why_tests_cant": "continuous domain, branch cut-offs", "anchors": ["lib/quat.rs:Quat::to_axis_angle,Quat::init_from_axis_angle_radian"]}
{"id": "C25", "title": "Linear interpolation", "statement": "interpolate_linear is start at t<=0, end at t>=1 (t outside [0,1] is clamped), affine in between, and each component stays between the endpoint components.", "quantifier": "all real quaternions and t", "why_tests_cant": "continuous domain", "anchors": ["lib/quat.rs:Quat::interpolate_linear"]}
{"id": "C26", "title": "Spherical interpolation", "statement": "interpolate_slerp returns start at t<=0 and +/-end at t>=1, clamps t, and returns unit quaternions for unit inputs. (Unit norm fails in the shipped code when the inputs are more than 90 degrees apart; within the near-parallel linear branch the norm deviates by at most 5e-5.)", "quantifier": "all unit quaternions and real t", "why_tests_cant": "continuous domain with branch cuts; repo has no slerp test", "anchors": ["lib/quat.rs:Quat::interpolate_slerp"]}
{"id": "C27", "title": "Quaternion power", "statement": "pow(t) panics exactly when the vector part is zero; otherwise pow(1)=q, |pow(t)| = |q|^t, pow(s+t)=pow(s)*pow(t), pow(0)=1, pow(2)=q*q.", "quantifier": "all real quaternions with non-zero vector part, all real s,t", "why_tests_cant": "continuous domain", "anchors": ["lib/quat.rs:Quat::pow"]}
{"id": "C28", "title": "Quaternion logarithm", "statement": "ln(q) is the quaternion logarithm (ln|q|, acos(w/|q|) v/|v|). (False in the shipped code.) It panics exactly when the vector part has zero length.", "quantifier": "all real quaternions", "why_tests_cant": "continuous domain; no tests", "anchors": ["lib/quat.rs:Quat::ln"]}
{"id": "C29", "title": "Implicit-w construction", "statement": "init_from_vals_auto_w(x,y,z) is a unit quaternion with w <= 0 whenever x^2+y^2+z^2 <= 1; outside that ball it silently returns a non-unit quaternion.", "quantifier": "all reals", "why_tests_cant": "continuous domain", "anchors": ["lib/quat.rs:Quat::init_from_vals_auto_w"]}
{"id": "C30", "title": "Translation matrix translates", "statement": "init_from_translation(t).to_translation_matrix maps (p,1) to (p+t,1). (False in the shipped code: the linear part is zero and the offset is t/2.)", "quantifier": "all real t, p", "why_tests_cant": "all inputs; no tests", "anchors": ["lib/quat.rs:Quat::init_from_translation,Quat::to_translation_matrix"]}
{"id": "C31", "title": "Plane reflection and components", "statement": "for a unit pure quaternion n (plane normal), reflection_in_plane(p) = p - 2(n.p)n is an involutive isometry, parallel_component_of_plane(p) + orthogonal_component_of_plane(p) = p, the first is orthogonal to n, the second parallel to n.", "quantifier": "all unit normals and real p", "why_tests_cant": "continuous domain; no tests", "anchors": ["lib/quat.rs:Quat::reflection_in_plane,Quat::parallel_component_of_plane,Quat::orthogonal_component_of_plane"]}
{"id": "C32", "title": "Bounding-box overlap test is exact", "statement": "AxisAlignedBBox::intersect is symmetric on all floats, and for boxes with lower<=upper it is true exactly when the two closed boxes (possibly unbounded) share a point.", "quantifier": "all boxes incl. infinite extents", "why_tests_cant": "unbounded geometric domain", "anchors": ["lib/bound.rs:AxisAlignedBBox::intersect"]}
{"id": "C33", "title": "Union of bounds is the least enclosing box", "statement": "get_union(bs) discards the old content, yields a box containing every input box, contained in any box containing them all, independent of the order of bs; on the empty slice it is the empty (inverted) box; NaN bounds are ignored.", "quantifier": "all lists of boxes of any length over any floats", "why_tests_cant": "list length unbounded", "anchors": ["lib/bound.rs:AxisAlignedBBox::get_union"]}
{"id": "C34", "title": "Longest axis", "statement": "get_longest_axis returns the axis with the largest extent together with that extent. (False in the shipped code: it always answers Z.)", "quantifier": "all boxes", "why_tests_cant": "test would need the right box; comparator bug is for all inputs", "anchors": ["lib/bound.rs:AxisAlignedBBox::get_longest_axis"]}
{"id": "C35", "title": "Centroid", "statement": "get_centroid is the midpoint and lies inside the box; in floats it stays inside whenever lower+upper does not overflow.", "quantifier": "all boxes, all floats", "why_tests_cant": "rounding over the whole domain", "anchors": ["lib/bound.rs:AxisAlignedBBox::get_centroid"]}
{"id": "C36", "title": "Bounds enclose shapes", "statement": "the bounding box built by each shape constructor contains every point of the shape (ray, point, sphere, plane, box, segment, prism), so the bounding pre-test never causes a false negative.", "quantifier": "all constructed shapes, all their points", "why_tests_cant": "infinitely many points per shape", "anchors": ["lib/bound.rs:AxisAlignedBBox::init", "lib/ray.rs:Ray3::init", "lib/sphere.rs:Sphere::init", "lib/line.rs:Line3::init", "lib/triprism.rs:TriPrism::init"]}
{"id": "C37", "title": "Intersection queries are symmetric and terminate", "statement": "for every pair of shapes a.get_intersect(b) terminates; for each pair of different kinds that both directions support, b.get_intersect(a) returns the same answer bit for bit; it panics exactly for the unsupported pairs whose bounds overlap.", "quantifier": "all pairs of shapes over any floats", "why_tests_cant": "mutual dynamic dispatch between implementations; every pair and every value", "anchors": ["lib/point.rs:get_intersect", "lib/plane.rs:get_intersect", "lib/sphere.rs:get_intersect", "lib/ray.rs:get_intersect", "lib/rbox.rs:get_intersect", "lib/line.rs:get_intersect", "lib/triprism.rs:get_intersect"]}
{"id": "C38", "title": "Answer shape consistency", "statement": "whenever get_intersect answers, the flag is true iff a location is returned.", "quantifier": "all pairs of shapes over any floats", "why_tests_cant": "all code paths", "anchors": ["lib/*.rs:get_intersect"]}
{"id": "C39", "title": "Point-point", "statement": "Point3::get_intersect(Point3) is true exactly when all coordinates are equal (the configured vicinity never matters, because the degenerate bounds are compared first), and returns self's position.", "quantifier": "all float points and vicinities", "why_tests_cant": "all values", "anchors": ["lib/point.rs:Point3::get_intersect"]}
{"id": "C40", "title": "Sphere-sphere", "statement": "for radii >= 0 the answer is true exactly when the centre distance is <= r1+r2; the returned location lies in both balls when r1+r2>0; with two zero radii at the same centre the location is NaN.", "quantifier": "all real spheres", "why_tests_cant": "continuous domain", "anchors": ["lib/sphere.rs:Sphere::get_intersect"]}
{"id": "C41", "title": "Sphere-point", "statement": "true for every point of the ball; exact characterisation: true iff the point is in the bounding cube (so corner points outside the ball are false positives).", "quantifier": "all real spheres and points", "why_tests_cant": "continuous domain", "anchors": ["lib/sphere.rs:Sphere::get_intersect"]}
{"id": "C42", "title": "Ray-sphere", "statement": "for a ray with unit direction and radius >= 0: true iff some point of the ray is in the ball; the returned location is on the ray and on the sphere, and from outside it is the first hit.", "quantifier": "all real rays and spheres", "why_tests_cant": "continuous domain, sign case analysis", "anchors": ["lib/ray.rs:Ray3::get_intersect"]}
{"id": "C43", "title": "Ray-plane", "statement": "true implies the location is on both the ray and the plane; the answer is true exactly when the ray meets the plane against its normal or lies in it; back-facing hits are reported as misses.", "quantifier": "all real rays and planes", "why_tests_cant": "continuous domain", "anchors": ["lib/ray.rs:Ray3::get_intersect"]}
{"id": "C44", "title": "Sphere-plane", "statement": "true exactly when the signed distance along the normal is <= radius; the location is the orthogonal projection of the centre on the plane; it is in the ball exactly when |distance| <= radius (spheres wholly behind the plane are false positives).", "quantifier": "all real spheres and planes", "why_tests_cant": "continuous domain", "anchors": ["lib/sphere.rs:Sphere::get_intersect"]}
{"id": "C45", "title": "Plane-point", "statement": "true exactly when the distance from the point to the plane is <= the plane's vicinity; returns the point.", "quantifier": "all real planes, points and vicinities", "why_tests_cant": "continuous domain", "anchors": ["lib/plane.rs:Plane::get_intersect"]}
{"id": "C46", "title": "Box-point", "statement": "true exactly when every coordinate lies in [o-s, o+s] (rounded), for all floats; in exact arithmetic exactly the closed cube.", "quantifier": "all floats", "why_tests_cant": "all values", "anchors": ["lib/rbox.rs:RecBox::get_intersect"]}
{"id": "C47", "title": "Ray-point", "statement": "for directions with no zero component: a point exactly on the ray is found and returned; a reported location is on the ray and within the tolerance of the point. Rays with a zero direction component never report any point (false negatives).", "quantifier": "all real rays and points", "why_tests_cant": "continuous domain; division by zero corner", "anchors": ["lib/ray.rs:Ray3::get_intersect"]}
{"id": "C48", "title": "Ray-ray", "statement": "rays that really meet at one point (non-parallel above the cut-off) are found with the exact location; the coplanarity check is vacuous, so skew rays whose bounds overlap are reported as intersecting.", "quantifier": "all real rays", "why_tests_cant": "continuous domain", "anchors": ["lib/ray.rs:Ray3::get_intersect"]}
{"id": "C49", "title": "Prism-point", "statement": "for a non-degenerate base and height>0, TriPrism::get_intersect(Point3) is true exactly when the point is in the solid prism (convex hull of the six vertices).", "quantifier": "all real prisms and points", "why_tests_cant": "continuous domain", "anchors": ["lib/triprism.rs:TriPrism::get_intersect"]}
{"id": "C50", "title": "Prism-segment", "statement": "for a non-degenerate base, height>0 and a proper segment: true exactly when the segment meets the solid prism; the location is on the segment and in the prism. A zero-length segment outside the prism but inside its bound is wrongly reported with a NaN location.", "quantifier": "all real prisms and segments", "why_tests_cant": "continuous domain; early-exit loop over facets", "anchors": ["lib/triprism.rs:TriPrism::get_intersect"]}
{"id": "C51", "title": "Support points", "statement": "get_support returns None exactly for zero-magnitude directions (sphere, box, prism) and otherwise a point of the shape maximising the inner product with the direction.", "quantifier": "all real shapes and directions", "why_tests_cant": "maximisation over infinitely many points", "anchors": ["lib/sphere.rs:get_support", "lib/rbox.rs:get_support", "lib/triprism.rs:get_support", "lib/point.rs:get_support"]}
{"id": "C52", "title": "GJK query", "statement": "query_intersect on two spheres never fails its simplex-size assertion; Some(false) implies the open balls are disjoint; Some(true) implies the balls intersect unless the centres differ only in x (where it is a false positive); other shape kinds panic.", "quantifier": "all real spheres, any number of loop iterations", "why_tests_cant": "unbounded loop over continuous state", "anchors": ["lib/intersect_gjk.rs:query_intersect,contains_minkowski_origin,support"]}
{"id": "C53", "title": "Vicinity", "statement": "set_vicinity(e) stores |e| so a tolerance is never negative; within_vicinity(a,b) is |a-b| <= tolerance in exact arithmetic, is reflexive on all finite floats, and false if a or b is NaN.", "quantifier": "all floats", "why_tests_cant": "all values", "anchors": ["lib/point.rs:IVicinity", "lib/ray.rs:IVicinity", "lib/i_vicinity.rs"]}
{"id": "C54", "title": "Vector arithmetic", "statement": "plus/minus/mul_elem/div/scale on 2-,3-,4-vectors are component-wise; plus and mul_elem commute bit for bit; in exact arithmetic they form a vector space; size() is the dimension.", "quantifier": "all floats / reals", "why_tests_cant": "universal laws", "anchors": ["lib/mat.rs:Mat2x1,Mat1x2,Mat3x1,Mat1x3,Mat4x1,Mat1x4"]}
{"id": "C55", "title": "Floating-point accuracy of dot, magnitude and normalisation", "statement": "in binary64/binary32 round-to-nearest, absent overflow/underflow, dot's error is at most gamma*sum|a_i b_i|, magnitude is within a few ulps of the Euclidean norm and normalize yields length within a few ulps of 1.", "quantifier": "all finite floats in the stated range", "why_tests_cant": "the whole float domain", "anchors": ["lib/mat.rs:Mat3x1::dot,Mat3x1::magnitude,Mat3x1::normalize"]}
{"id": "C56", "title": "Finite floats: negation, conjugation, construction are exact", "statement": "negate and conjugate are bit-exact involutions; mul by the identity quaternion and interpolation at the endpoints reproduce the value of any finite float quaternion.", "quantifier": "all finite f32/f64 quaternions", "why_tests_cant": "whole float domain", "anchors": ["lib/quat.rs:Quat::negate,Quat::conjugate,Quat::mul,Quat::interpolate_linear"]}
{"id": "C57", "title": "Constructors: panics and round trip", "statement": "each shape constructor panics (failed assertion) exactly when an argument slice has the wrong length; otherwise get_shape_data reads back the arguments bit for bit (rays and planes: with the direction/normal replaced by its normalisation; prisms: base triangle followed by height times the unit base normal), get_type is the right kind, and the tolerance is the literal 0.000001. A dual quaternion keeps exactly the two quaternions passed to its constructor.", "quantifier": "all slices of floats of any length", "why_tests_cant": "slices of every length and every float, including NaN and infinities", "anchors": ["lib/point.rs:16-31", "lib/ray.rs:18-46", "lib/sphere.rs:17-33", "lib/plane.rs:17-48", "lib/rbox.rs:17-33", "lib/line.rs:17-75", "lib/triprism.rs:30-140", "lib/dualquat.rs:22-27"]}
{"id": "C58", "title": "Floating-point accuracy of products", "statement": "in binary32/binary64, every finite component of cross, of a matrix-matrix or matrix-vector product, and of a quaternion product differs from the exact value by at most ((1+u)^k-1) times the sum of the absolute values of its terms (k=2 for cross, 3 for 3x3, 4 for 4x4 and quaternions) plus an explicit underflow term; rotate_vector and reflection_in_plane are within ((1+u)^8-1)*4|q|^2*|v|_1 plus underflow of the exact result.", "quantifier": "all finite floats whose result does not overflow", "why_tests_cant": "the whole float domain", "anchors": ["lib/mat.rs:Mat3x1::cross,Mat3::mul,Mat4::mul,Mat3::mul_mat3x1,Mat4::mul_mat4x1", "lib/quat.rs:Quat::mul,Quat::rotate_vector,Quat::reflection_in_plane"]}
{"id": "C59", "title": "Floating-point accuracy of quaternion length and normalisation", "statement": "in binary32/binary64, if no square underflows and the length is finite, length is within 4u (relative) of the norm; normalising a non-zero quaternion then succeeds, each component is within 6u|q_i|/|q| + eta of the exact one and the result has norm 1 up to 6u + 2 eta.", "quantifier": "all finite float quaternions in the stated range", "why_tests_cant": "the whole float domain", "anchors": ["lib/quat.rs:Quat::length,Quat::normalize"]}
{"id": "C60", "title": "Bounding boxes survive rounding", "statement": "in binary32/binary64 the bounding box get_bound returns for a constructed shape is not inverted and has no NaN, contains every representable point of the exact shape (rays and planes: the shape given by the stored unit direction; prisms: by the stored vertices), and two constructed shapes whose exact point sets share any real point, representable or not, pass the bounding pre-test, so rounding in the bound never rejects a true intersection.", "quantifier": "all finite constructor arguments (radii and extents non-negative), every shape kind, every monotone rounding", "why_tests_cant": "the whole float domain, including bounds that round or overflow", "anchors": ["lib/sphere.rs:17-60", "lib/rbox.rs:17-60", "lib/line.rs:17-75", "lib/point.rs:16-60", "lib/ray.rs:18-80", "lib/plane.rs:17-80", "lib/triprism.rs:30-140", "lib/bound.rs:intersect"]}
{"id": "C61", "title": "Sphere-sphere query in floating point: margins and location", "statement": "in binary64, for spheres with coordinates and radii up to 2^500, the sphere-sphere query answers true if the centre distance is at most (1-2^-50)(r+r')-2^-535 and false if it is at least (1+2^-50)(r+r')+2^-535; when it answers true by that margin every coordinate of the reported location is within a few ulps of a real point common to both balls.", "quantifier": "all finite float spheres in the stated range", "why_tests_cant": "the whole float domain; the exact decision (no margin) is refuted by a witness", "anchors": ["lib/sphere.rs:62-130", "lib/mat.rs:Mat3x1::magnitude"]}
{"id": "C62", "title": "Building and reading bounds", "statement": "AxisAlignedBBox::init panics with unimplemented exactly for the shape kinds that have no bound, with an assertion failure exactly for a slice of the wrong length, and otherwise returns corners that are, axis by axis, the ones of the kind (point: the point; sphere and box: origin minus/plus extent; rect: the two corners; plane: unbounded; ray: bounded only on the side it leaves). get_bound_data holds lower, upper and 26 zeros and rebuilds the same box; the default box contains every NaN-free point; every unwritten operation of bounds panics and does nothing else.", "quantifier": "all shape kinds, all slices, all floats including NaN and infinities, all pairs and lists of bounds", "why_tests_cant": "all slice lengths and all values", "anchors": ["lib/bound.rs:22-84", "lib/bound.rs:133-145", "lib/bound.rs:185-190", "lib/bound_sphere.rs:1-60"]}
{"id": "C63", "title": "Plane-point and sphere-plane queries in floating point: margins and location", "statement": "in binary64, for a plane built from a point and a normal (components zero or between 2^-511 and 2^510) and coordinates up to M <= 2^1000: the plane-point query answers true if the exact distance of the point from the exact plane is at most the tolerance minus (2^-47 M + 2^-1072) and false if it is more than the tolerance plus that margin; the sphere-plane query answers true (false) if the signed distance of the centre is below (above) the radius by that margin, and every location it reports is within twice the margin of the exact foot of the perpendicular, coordinate by coordinate.", "quantifier": "all finite float planes, points and spheres in the stated range, every finite tolerance", "why_tests_cant": "the whole float domain; that the margin must grow with the coordinates is shown by witnesses on both sides", "anchors": ["lib/plane.rs:17-94", "lib/sphere.rs:91-124", "lib/mat.rs:Mat3x1::dot", "lib/mat.rs:Mat3x1::normalize"]}
{"id": "C64", "title": "Box-point and sphere-point queries in floating point: rejection", "statement": "a point whose exact coordinate along some axis exceeds the face of the exact cube (half size or radius r around c) by more than one relative rounding error of the face is never reported by the box-point or sphere-point query; with completeness (every point of the exact cube is reported) the answer is decided outside a shell of relative width 2^-53 (|c|+r).", "quantifier": "all finite constructor arguments without any restriction of range, overflow included", "why_tests_cant": "the whole float domain; a witness shows that some shell is needed", "anchors": ["lib/rbox.rs:17-63", "lib/sphere.rs:17-90", "lib/bound.rs:22-84"]}
{"id": "C65", "title": "The ray-plane query in floating point: decision margins and location error", "statement": "For a ray built from o, d and a plane built from a, n (finite, within range, coordinates up to M), with exact cosine delta between direction and normal and exact signed distance S of o from the plane: if delta exceeds nu = 16u+8eta the query reports no intersection; if delta <= -2nu and S < -2mu (mu = 40uM + 8(1+M)eta) it reports none; if delta <= -2nu and S > 2mu it reports one, and the location is within 4(mu + nu T)/|delta| of the exact intersection point at distance T.  For f64, nu <= 2^-48 and mu <= 2^-47 M + 2^-1072.  Without a margin the claim is false.", "quantifier": "all finite binary floating-point rays and planes within range, any binary format satisfying the rounding-error laws; instance for f64", "why_tests_cant": "the decision depends on rounding in the normalisations, two dot products and a division; a test sees one rounding pattern, and wrong answers occur only inside a margin that has to be derived", "anchors": ["lib/ray.rs:18-33", "lib/ray.rs:214-259", "lib/plane.rs:17-40"]}
{"id": "C66", "title": "The ray-sphere query in floating point: decision margins and location error", "statement": "For a ray built from o, d and a sphere built from c and r >= 0 (finite, coordinates and radius up to M within range), with b the exact projection of o-c on the direction, D the exact discriminant, Delta = 512 u M^2 and tau = 5/2 Delta/sqrt D: D < -Delta gives no intersection; D >= Delta with exit parameter -b+sqrt D < -tau gives none; D >= Delta with the origin clearly inside (entry < -tau, exit > tau) gives a hit located within tau of the exit point; D >= Delta with entry > tau gives a hit located within tau of the entry point.  For f64 Delta = 2^-44 M^2.  Without a margin the claim is false.", "quantifier": "all finite binary floating-point rays and spheres within range, any binary format satisfying the rounding-error laws; instance for f64", "why_tests_cant": "cancellation in the discriminant makes the answer depend on the rounding of large squares; only a proof bounds the set of inputs on which the answer can be wrong, including the bounding pre-test", "anchors": ["lib/ray.rs:18-33", "lib/ray.rs:166-213", "lib/sphere.rs:17-27"]}
{"id": "C67", "title": "Rotating with a normalised quaternion in floating point: error bounds for the sandwich product and the rotation matrix", "statement": "For a nonzero quaternion Q and a vector v (finite, within range): normalising Q does not panic, and rotating v with the result gives, in every component, the exact rotation Q v Q^-1 up to 96u|v| + 16eta, so the length is kept up to twice that; rotating back with the conjugate gives v up to 320u|v| + 64eta; every entry of the row-major rotation matrix of the normalised quaternion is within 100u of the exact rotation matrix, its last row and column are exact, and the matrix applied to (v,1) gives the exact rotation up to 200u|v| + 5eta.  For f64 the bounds are 2^-46|v| + 2^-1071 (rotation) and 2^-44|v| + 2^-1069 (round trip).  Exact equality is false.", "quantifier": "all nonzero quaternions and all vectors of finite binary floating-point numbers within range, any binary format satisfying the rounding-error laws; instance for f64", "why_tests_cant": "a test compares a few rotations with a tolerance chosen by hand; the claim bounds the error of every rotation, of the length, of the round trip and of the matrix against the exact rotation", "anchors": ["lib/quat.rs:151-197", "lib/quat.rs:245-258", "lib/quat.rs:349-358", "lib/quat.rs:411-418"]}
{"id": "C68", "title": "Rounding accuracy of the vector and matrix operations of every type", "statement": "For each of the six vector types and both matrix types, on finite operands: every component of plus, minus, mul_elem, scale and div is the exact result up to one rounding (relative u, plus eta for products and quotients) and is finite whenever the exact result is in range; dot, matrix times matrix, matrix times column and row times matrix are within ((1+u)^n-1) sum|ab| + n(1+u)^(n-1) eta of the exact value and finite when the sum of magnitudes is in range; the trace is within ((1+u)^(n-1)-1) sum|a_ii|; the homogeneous normalisation divides every entry by the last with one rounding; the magnitude is within 4u of the Euclidean norm and normalize yields finite components and length 1 up to 6u+2eta (f64: 2^-50).  On all floats the magnitude is NaN exactly if a component is NaN.  Exact equality is false.", "quantifier": "all six vector types and both matrix types, all finite floating-point operands (NaN clause: all floats), every binary format satisfying the rounding-error laws; instance for f64", "why_tests_cant": "the macro instances are separate code for each dimension and a test compares a few exactly representable results; the bound has to hold for every operand and every type", "anchors": ["lib/mat.rs:170-248", "lib/mat.rs:250-334", "lib/mat.rs:336-459", "lib/mat.rs:461-603", "lib/mat.rs:605-729", "lib/mat.rs:731-886", "lib/mat.rs:888-1110", "lib/mat.rs:1206-1460"]}
{"id": "C69", "title": "Degenerate shapes: what the queries answer", "statement": "The constructors accept a plane with zero normal, a ray with zero direction and a prism over a triangle with a repeated vertex, and the queries then answer as follows for every partner. Zero-normal plane: every ray and every sphere is reported to meet it, at a NaN location, and no point is. Zero-direction ray: every plane is reported hit and so is every sphere whose bounding cube overlaps the ray's bound, at NaN; no point and no ray is. Repeated-vertex prism, of any height: exactly the points with no coordinate below the triangle are reported inside, and every segment whose bound overlaps is reported hit at its first end. The default prism (all vertices at the origin, tolerance zero, bound of all space) is reported as containing every point and as meeting every segment at its first end.", "quantifier": "all degenerate shapes as described, all partners of the listed types, all floats including NaN and infinities for the partners, every format", "why_tests_cant": "the answer comes from NaN propagating through comparisons written in negated form; it depends on the exact shape of each comparison, for all partners", "anchors": ["lib/plane.rs:17-35", "lib/plane.rs:56-93", "lib/ray.rs:18-34", "lib/ray.rs:54-264", "lib/sphere.rs:41-129", "lib/triprism.rs:30-122", "lib/triprism.rs:148-370"]}
{"id": "C70", "title": "NaN arguments: what the queries answer", "statement": "The bound test ignores every axis on which a bound is NaN. A sphere with NaN radius, or with NaN centre, is reported to intersect every sphere and every ray at a NaN location; with NaN radius also every point (at the point) and every plane. A point with a NaN coordinate is on no plane, no ray and no point, itself included. The point with three NaN coordinates is reported in every box, every sphere and every prism.", "quantifier": "all shapes of the listed types as partners, all floats, every format", "why_tests_cant": "NaN inputs are not generated by the tests, and the answer depends on the polarity of each comparison", "anchors": ["lib/bound.rs:110-132", "lib/sphere.rs:17-28", "lib/sphere.rs:41-129", "lib/ray.rs:54-264", "lib/point.rs:16-26", "lib/point.rs:39-79", "lib/rbox.rs:41-62", "lib/triprism.rs:148-370", "lib/plane.rs:56-93"]}
{"id": "C71", "title": "Matrix inverse in floating point: decision and accuracy", "statement": "For a Mat4 with finite entries of magnitude at most M (1 <= M <= 2^252 for f64), inverse returns None only if |det| < eps + 300 u M^4, does return None if |det| < eps - 300 u M^4, and if |det| >= eps + 600 u M^4 returns a row-major matrix with finite entries, each within 2^13 u M^7/det^2 of the corresponding entry of the transposed exact inverse. For a Mat3 the decision agrees with the exact determinant against the interval (-1e-11, 1e-10) outside a margin of 41 u M^3. Without the margin this is false: an exactly singular integer Mat4 exists for which f64 returns Some.", "quantifier": "all matrices with finite representable entries up to M, in either storage order, every format with the standard rounding-error model; f64 instances", "why_tests_cant": "universally quantified error bound over 16 float entries with cancellation in the determinant", "anchors": ["lib/mat.rs:1143-1190", "lib/mat.rs:1525-1672"]}
{"id": "C72", "title": "What the tolerance of a shape influences", "statement": "`set_vicinity` on either shape leaves the result of `get_intersect` unchanged (flag, location and panics) for every pair of kinds except point-point, ray-ray, ray-point and plane-point, and for two points or two rays only the tolerance of the receiver counts. For these four kinds the dependence is real (binary64 shapes from the constructors with differing answers). Raising the tolerance of either shape to one that is larger in absolute value and finite keeps every hit, at the same location.", "quantifier": "all shapes, all partners, all tolerances and all floats including NaN and infinities; monotonicity for every lawful format", "why_tests_cant": "non-interference over all pairs of shapes and all tolerances, including those for which a rounding of a + tolerance matters", "anchors": ["lib/i_shape.rs:20-36", "lib/point.rs:39-96", "lib/ray.rs:54-165", "lib/ray.rs:272-281", "lib/plane.rs:56-110", "lib/sphere.rs:41-159", "lib/rbox.rs:41-122", "lib/line.rs:83-110", "lib/triprism.rs:148-410"]}
{"id": "C73", "title": "Growing a ball or a cube keeps every hit", "statement": "If a ball is reported to meet a shape (in either order of the query), then so is the ball with the same centre and a larger radius; against points and planes the location stays the same too. Against rays this needs a non-negative radius, and fails without it. The same holds for a cube with a larger half side against points.", "quantifier": "all centres, radii, partner shapes and all floats including NaN and infinities, every lawful format", "why_tests_cant": "monotonicity of a chain of rounded operations over all pairs of radii and all partner shapes, including overflow to infinity and NaN", "anchors": ["lib/sphere.rs:20-159", "lib/rbox.rs:16-122", "lib/ray.rs:166-215", "lib/bound.rs:22-132"]}
{"id": "C74", "title": "Symmetries that survive rounding", "statement": "Transposing a matrix product gives the product of the transposes in reverse order bit for bit. Vector sum, elementwise product and dot product commute, |a-b| = |b-a|, and negating a vector keeps its magnitude and negates its normalisation, bit for bit. a x b is -(b x a) up to the signs of zeros. A quaternion and its negation have the same length and the same rotation matrix bit for bit, and rotate and reflect every vector alike up to the signs of zeros. The identity matrix (row-major) and the identity quaternion are neutral on both sides up to the signs of zeros for finite entries; scaling by 1 changes nothing. The flags of sphere-sphere queries, and of point-point queries under equal tolerances, do not depend on the order.", "quantifier": "all floats including NaN, infinities and signed zeros, every lawful format; both layouts and all vector types", "why_tests_cant": "bitwise identities of rounded computations over all inputs; the exceptions (sign of zero, NaN) are exactly the inputs sampling misses", "anchors": ["lib/mat.rs:385-440", "lib/mat.rs:965-1040", "lib/mat.rs:1115-1140", "lib/mat.rs:1292-1400", "lib/mat.rs:1467-1500", "lib/quat.rs:151-197", "lib/quat.rs:245-272", "lib/quat.rs:324-409", "lib/sphere.rs:41-159", "lib/point.rs:39-96"]}
{"id": "C75", "title": "Moving everything moves the answer", "statement": "In exact arithmetic, adding the same vector to the positions passed to two constructor calls leaves the flag (or panic) of the intersection query unchanged and moves the reported location by that vector, with the default or any other tolerances. Support points, bounding boxes and their centroids move along, and the answer of the GJK query stays the same. In binary64 this fails: two points that do not meet can meet once both are moved.", "quantifier": "all seven constructors and all pairs of them, all translation vectors, all arguments including NaN and infinities (positions free of negative zero), all tolerances, all fuels", "why_tests_cant": "equivariance is a relation between runs over all translations and all pairs of shapes, and in floating point it holds only up to rounding, which sampling hides behind tolerances", "anchors": ["lib/point.rs:12-97", "lib/ray.rs:15-282", "lib/sphere.rs:15-160", "lib/plane.rs:15-111", "lib/rbox.rs:16-123", "lib/line.rs:15-111", "lib/triprism.rs:28-398", "lib/bound.rs:22-132", "lib/intersect_gjk.rs:query_intersect"]}
{"id": "C76", "title": "Mirroring everything mirrors the answer, also with rounding", "statement": "Flipping the signs of any set of coordinates in the positions, directions and normals passed to two constructor calls leaves the flag (or panic) of the intersection query unchanged and flips the same signs in the reported location, bit for bit up to the signs of zeros, with the default or any other tolerances. For prisms this needs an even number of flipped axes (half turns), and the corners of prisms and segments must be free of NaN. It fails in binary64 for a sphere with a point, where it holds in exact arithmetic only.", "quantifier": "all pairs of constructor calls, all eight sign patterns, all floats including NaN, infinities and signed zeros, every lawful format, all tolerances", "why_tests_cant": "a relation between pairs of runs that has to hold bit for bit for all roundings; the exception needs a tie in the rounded bounds that sampling does not hit", "anchors": ["lib/point.rs:12-97", "lib/ray.rs:15-282", "lib/sphere.rs:15-160", "lib/plane.rs:15-111", "lib/rbox.rs:16-123", "lib/line.rs:15-111", "lib/triprism.rs:28-398", "lib/bound.rs:22-132"]}
{"id": "C77", "title": "Support points in floating point are furthest up to rounding", "statement": "For a non-zero direction in range, get_support of a box or sphere made by its constructor, or of a prism with finite stored vertices, answers Some(p) with finite p. For the box p is a corner of the exact cube up to one rounding per coordinate; for the prism it is one of the six stored vertices; for the sphere each coordinate is within 8u(|c|+r) + 2(1+r)eta of the exact support point. In each case the inner product of p with the direction is within an explicit rounding bound of the maximum over the exact solid. Exact maximality fails: a binary64 witness picks a corner that is not furthest.", "quantifier": "all boxes, spheres and prisms with finite data in range, all directions in range, every lawful format with the standard rounding error model; binary64 with explicit exponents", "why_tests_cant": "the guarantee compares with all points of a solid under all roundings; a wrong sign of a corner shows only when the error exceeds the tie", "anchors": ["lib/rbox.rs:64-109", "lib/sphere.rs:131-146", "lib/triprism.rs:372-397"]}
{"id": "C78", "title": "Prism against point in floating point: right outside a rounding margin", "statement": "For a prism and a point made by their constructors from finite numbers in range, with base triangle of doubled area at least M^2/kappa: if the point lies at least 2^14 kappa^2 u M inside all five facets of the exact right prism, get_intersect (in either order) answers true with the point itself as location; if it lies more than that outside some facet, the answer is (false, None) in either order. The five signed facet distances have unit normals and the exact solid is where all are <= 0. Exactness fails: a binary64 witness reports a point outside the prism.", "quantifier": "all vertices, heights and points in range, every lawful format with the standard rounding error model; binary64 with margin 2^-39 kappa^2 M for kappa <= 2^40 and sizes between 2^-200 and 2^200", "why_tests_cant": "covers all roundings of the constructor (cross product, normalisation, scaling), of the bounding box and of the ten half-space tests at once", "anchors": ["lib/triprism.rs:30-122", "lib/triprism.rs:148-208"]}
{"id": "C79", "title": "Prism against segment in floating point", "statement": "For a prism and a segment made by their constructors from finite numbers in range: (complete) a segment that passes through the interior of the prism, clear of the rounding margin, is reported; (ends) an end point at least 2^14 kappa^2 u M inside all five facets is reported, with the first end point as location, or the second if the first is clearly outside; (sound) every reported finite location passes the exact half-space conditions up to the margin and is within 80 u M per coordinate of a point of the segment, so that the segment comes within margin + 140 u M of the five half spaces; (finite) the location is finite.", "quantifier": "all vertices, heights and segments in range, every lawful format with the standard rounding error model; binary64 with margin 2^-39 kappa^2 M", "why_tests_cant": "covers all roundings of both constructors, of the five ray-plane hits, of the re-check and of the length check; the missed crossings depend on the last bit of the hit", "anchors": ["lib/triprism.rs:206-365", "lib/ray.rs:214-260", "lib/line.rs:20-70"]}
{"id": "C80", "title": "Ray against point in floating point: margins and location", "statement": "For a ray and a point made by their constructors from finite numbers in range, with any finite tolerance eps >= 0 set on the ray: (sound) if get_intersect reports a location, in either order, the location is finite and within 512 u M per coordinate of a point q of the exact ray, and q differs from the point by at most 128 u M in x, eps + 128 u M in y and 2 eps + 128 u M in z; (rejects) a point further than 2 eps + 128 u M from every point of the ray in some coordinate is answered (false, None); (finds) if no component of the direction is tiny, the three exact quotients (p_i - o_i) / dir_i are non-negative and neighbours agree up to eps - 128 u M, the point is reported in both orders with the same location. Exactness fails: with the default tolerance a binary64 point lying exactly on the ray is missed.", "quantifier": "all rays, points and tolerances in range, every lawful format with the standard rounding error model; binary64 with u = 2^-53", "why_tests_cant": "covers every rounding of the normalisation, the subtraction, the three divisions and the two tolerance comparisons; overflow of a quotient to infinity must be excluded for all inputs", "anchors": ["lib/ray.rs:18-35", "lib/ray.rs:141-165", "lib/ray.rs:275-281"]}
{"id": "C81", "title": "Ray against ray in floating point: margins and location", "statement": "For two rays made by their constructors from finite numbers in range (origins up to M), tolerance eps >= 512 u on the first, unit directions e, e': (meet) if some component of e x e' exceeds 0.0001 + 40 u and the exact rays meet in p, get_intersect reports a finite location within 320 u (M + |p - o|) / |e x e'| of p in each coordinate; (always) beyond that cut-off any two rays whose projections to each axis meet are reported, next to the point of the first ray at distance |(o' - o) x e'| / |e x e'|; (parallel far) if every component of e x e' is at most 0.0001 - 40 u and the second origin is farther than eps + 128 u (M + eps) from the first line, the answer is (false, None); (parallel near) if it is within eps - 128 u (M + eps) of that line and the projections meet, the rays are reported, next to the first origin or to the second; (parallel meet) exactly parallel rays that share a point are reported within 456 u M of a shared point. Exactness fails: binary64 witnesses for an inexact location, for overlapping rays that are missed, and for skew rays that are reported.", "quantifier": "all pairs of rays and tolerances in range, every lawful format with the standard rounding error model; binary64 with u = 2^-53", "why_tests_cant": "the error of two normalisations, three cross products, magnitudes and a quotient must be bounded for all pairs of directions, including nearly parallel ones where the quotient amplifies it", "anchors": ["lib/ray.rs:17-37", "lib/ray.rs:58-140"]}
{"id": "C82", "title": "GJK on two spheres in binary64: no panic, and Some(false) only for balls apart up to rounding", "statement": "For two spheres made by their constructor whose centre coordinates and radii are each zero or of size between 2^-30 and M <= 2^30, the first coordinates of the centres not both zero, query_intersect never panics for any number of loop turns; it answers Some(false) only if r1 + r2 - 2^-46 M <= |c1 - c2|, equivalently on balls that overlap by more than 2^-46 M the answer, if any, is Some(true). Exactness fails: two overlapping balls are reported as disjoint by a few units in the last place.", "quantifier": "all pairs of spheres in range, all loop lengths, binary64 arithmetic with all intermediate roundings", "why_tests_cant": "the search visits unboundedly many directions obtained as triple products of rounded support points; the bound must hold for each, and panics come from directions that underflow to zero after many steps", "anchors": ["lib/intersect_gjk.rs:6-103", "lib/sphere.rs:131-146"]}
{"id": "C83", "title": "GJK on two disjoint spheres in binary64: the loop need not end", "statement": "query_intersect on two disjoint spheres made by their constructor, coordinates and radii in the range of C82, returns Some(false) after finitely many turns. This fails: for the sphere with centre (16778240, -3*2^-30, -5*2^-31) and radius 2^24 against the sphere at the origin with radius 0, which are 1024 or more apart, the loop runs forever, while in exact arithmetic it ends with Some(false). It holds when a plane across the first axis separates the spheres in the order first, second: c1.x + r1 <= c2.x - r2 gives Some(false) after one turn, without tolerance.", "quantifier": "all loop lengths; all pairs in range for the positive part; binary64 arithmetic with all intermediate roundings", "why_tests_cant": "a test can only observe that the loop has not ended yet; that it never ends needs an invariant region of states that every rounded turn maps into itself", "anchors": ["lib/intersect_gjk.rs:25-103", "lib/sphere.rs:131-146"]}
{"id": "C84", "title": "GJK on two spheres: the number of turns", "statement": "In exact arithmetic, for two spheres whose centres are not on a line parallel to the first axis and whose radii have a positive sum R, let g = | |c1 - c2| - R | be their distance from touching. If 2R <= g * 2^k then query_intersect has ended after k + 5 turns: with Some(true) if |c1 - c2| < R and Some(false) if |c1 - c2| > R. So the number of turns is at most logarithmic in R/g.", "quantifier": "all real spheres off the axis and not touching; all k", "why_tests_cant": "a bound over a continuum of pairs with no smallest gap; each test sees one number of turns", "anchors": ["lib/intersect_gjk.rs:25-103", "lib/sphere.rs:131-146"]}
{"id": "C85", "title": "Turning and rescaling everything turns and rescales the answer", "statement": "In exact arithmetic, apply one similarity (rotation or reflection, positive factor, translation) to the positions passed to two constructor calls, its linear part to directions and normals, and the factor to radii, heights and the tolerance of a plane. Then the intersection query still hits or misses, and the location is mapped by the similarity, for point-point, sphere-sphere, ray-sphere, ray-plane, sphere-plane, plane-point, and, for rotations, prism-point and prism-segment. The rotations are those computed by rotate_vector for unit quaternions. The answer of GJK stays the same if neither pair has its centres on a line parallel to the first axis and the spheres do not touch. It fails for sphere-point, box-point, ray-point, ray-ray, and for GJK on the axis.", "quantifier": "all similarities, all real shapes of the listed kinds (non-negative radii not both zero, positive heights, segments of positive length)", "why_tests_cant": "a relation between pairs of runs over a continuum of rotations and scales", "anchors": ["lib/point.rs:39-96", "lib/sphere.rs:41-159", "lib/ray.rs:44-282", "lib/plane.rs:40-111", "lib/triprism.rs:60-398", "lib/intersect_gjk.rs:25-103", "lib/quat.rs:245-272"]}
{"id": "C86", "title": "Quaternion inverse, interpolation, plane components and box centroid carry only rounding error", "statement": "In floating point: for a quaternion whose squared length and its reciprocal stay in range, inverse succeeds with every component within 8u (plus eta) of the exact inverse, and the exact product of the quaternion with it is 1 up to 32u + 4 eta|q|. For t in [0,1] interpolate_linear is within three roundings of the exact combination. parallel_component_of_plane and orthogonal_component_of_plane are within ten roundings of (v + qvq)/2 and (v - qvq)/2. For x^2+y^2+z^2 <= 1 init_from_vals_auto_w returns a quaternion with non-positive real part and squared norm 1 up to 13u + 6 eta. The centroid of a box is within two roundings of the midpoint. Out of range a non-zero quaternion panics on inverse or gets inverse 0, and interpolating between q and q does not return q.", "quantifier": "all inputs in the stated ranges, all formats with the standard error model (binary32, binary64)", "why_tests_cant": "worst-case rounding errors over all floating-point inputs", "anchors": ["lib/quat.rs:76-93", "lib/quat.rs:274-304", "lib/quat.rs:429-453", "lib/bound.rs:165-181"]}
{"id": "C87", "title": "Axis-angle conversion carries only rounding error and the library's error", "statement": "Suppose sin, cos, acos and pi are accurate to an absolute error d. In floating point, for a non-zero axis whose squares stay in range: init_from_axis_angle_radian of angle t is within 2d + (14+|t|)u of cos(t/2) + sin(t/2) n, n the unit axis, and rotate_vector with the result follows Rodrigues' formula up to the corresponding error. init_from_axis_angle_degree of D degrees is within (2+a/2)d + (18+9a)u, a = |D|/180, of the exact quaternion. to_axis_angle of a quaternion with |w| <= 1 above the cut-off 1e-6 returns the unit vector part up to 8u per component and 2 arccos w up to 2d + 8u; below the cut-off it returns the x axis and 0; rebuilding from axis and angle returns the quaternion up to 3d + 42u and its own distance from unit length. One unit in the last place above w = 1 every component of the returned axis is NaN.", "quantifier": "all axes, angles and quaternions in the stated ranges, all formats with the standard error model (binary32, binary64), all library functions of the stated accuracy", "why_tests_cant": "worst-case rounding errors over all floating-point inputs and all library implementations", "anchors": ["lib/quat.rs:199-221", "lib/quat.rs:223-243", "lib/quat.rs:245-265"]}
{"id": "C88", "title": "Spherical interpolation carries only rounding error and the library's error", "statement": "Suppose sin and atan2 are accurate to an absolute error d. In floating point, for quaternions of norm at most 65/64 with exact dot product c in [5u, 0.9998] and 0 <= t <= 1, interpolate_slerp is finite and within 120u + 240d of sin((1-t)w)/sin w P + sin(tw)/sin w Q, cos w = c, and that combination has squared norm 1 up to the deviations of the squared norms of the inputs. On all floating-point inputs, when the computed dot product exceeds the constant 0.9999 the result is, bit for bit, that of interpolate_linear, and when its negation does, that of interpolate_linear towards the negated end point.", "quantifier": "all quaternions and parameters in the stated ranges, all formats with the standard error model (binary32, binary64), all library functions of the stated accuracy; the last sentence for all inputs including NaN and infinities", "why_tests_cant": "worst-case rounding errors over all floating-point inputs and all library implementations", "anchors": ["lib/quat.rs:454-508"]}
{"id": "C89", "title": "Quaternion powers carry only rounding error and the library's error, except near the real axis", "statement": "Given a library whose sin, cos, acos are accurate to δ and whose powf is accurate to δ relatively, pow(x) of a quaternion in range succeeds and is within (5+2|x|)δ + (75|x|/s+20)u, relative to |q|^x, of the exact power |q|^x (cos xα + n sin xα), where s = sin α is the relative length of the vector part and s² ≥ 16u. So its norm is |q|^x, pow(n) is the n-fold product and pow(-1) the inverse up to that error. The factor 1/s is real: in binary64 the first power of 1 + 2^-30 i differs from it by at least 2^-31 with every library of accuracy 1e-14, because w/l rounds to 1 and the vector part is lost.", "quantifier": "for all formats with the standard rounding-error model, all libraries meeting the accuracy hypotheses, all quaternions and exponents in the stated range", "why_tests_cant": "the bound is over all inputs, all formats and all library implementations; a test samples one library at a few points, and the loss of small vector parts shows only for tiny rotations", "anchors": ["lib/quat.rs:382-400"]}
{"id": "C90", "title": "Long chains of quaternion products and rotations in floating point", "statement": "Multiplying n quaternions normalised by the library one after the other (p = p.mul(q)) gives, for n up to 2^46 in f64, a finite quaternion within (n+1) 2^-47 of the exact product of the unit quaternions, of length one up to the same bound. Normalising in every turn (p = p.mul(q).normalize()) never panics, for any number of turns, keeps the length within 2^-50 of one, and the error is at most (n+1) 2^-46. Rotating one vector n times, n up to 2^44, gives the exact result up to n (2^-44 |v| + 2^-1069). Without normalisation the length is not bounded over all n: quaternions within 8u of a unit one make it exceed every bound.", "quantifier": "for all n, all lists of n quaternions in range, all vectors in range; general formats and general distances from unit quaternions in the underlying theorems", "why_tests_cant": "the bound is uniform in the length of the chain and in all factors; drift over millions of turns and the never-panicking normalisation are statements about unbounded executions", "anchors": ["lib/quat.rs:324-338", "lib/quat.rs:349-361", "lib/quat.rs:245-258"]}
{"id": "C91", "title": "GJK on two spheres in binary64: deep overlaps are found in two turns; spheres clearly apart may be reported as intersecting", "statement": "query_intersect on two f64 spheres whose centres are at most two fifths of the sum of the radii apart answers Some(true) after at most two turns of its loop: it neither runs on nor panics, and rounding never makes it answer Some(false) (coordinates and radii zero or between 2^-30 and M, M between 2^-30 and 2^30, sum of radii at least 2^-30 M; both centres may have first coordinate zero). The converse direction has no such guarantee: two spheres whose centres are more than four times the sum of the radii apart are reported as intersecting.", "quantifier": "for all centres and radii in range with 5 |c1 - c2| <= 2 (r1 + r2), all turn limits of at least two", "why_tests_cant": "the support points, the search direction and the signs of two quartic triangle tests must come out right for every rounding of every input; the wrong answer needs a nearly degenerate triangle that random inputs do not hit", "anchors": ["lib/intersect_gjk.rs:6-103", "lib/sphere.rs:131-146"]}
{"id": "C92", "title": "Changing the unit by a power of two changes every algebraic result by exactly that power, bit for bit", "statement": "For f64 numbers that are zero, not finite, or of size between 2^-100 and 2^100, multiplying the inputs by powers of two 2^j, 2^k (|j|, |k| <= 100) multiplies the computed result by exactly the matching power of two, with no difference in rounding: sums and differences of vectors, matrices and quaternions and the trace (2^k), products, inner and cross products, matrix and matrix-vector products, quaternion products and multiples (2^(j+k)), lengths (2^k), rotations and reflections (2^(2j+k)), Mat4::inverse and the inverse of a quaternion (2^-k). normalize of vectors and quaternions and the division of a matrix by its last entry give bit-identical results, tolerance comparisons the same answer when the tolerance is scaled too, and the same panics occur. Not homogeneous: the singularity test of Mat4::inverse is absolute, so the same matrix in a smaller unit has no inverse; Mat3::inverse is not homogeneous at all; outside the range of exponents normalize breaks down.", "quantifier": "for all vectors of the six types, matrices of both types and both storage orders, quaternions with components in range (infinities and NaN included), all shifts of at most 100 places", "why_tests_cant": "the statement is about every rounding in every operation falling the same way; a constant that is not scaled, a missing factor or an extra tolerance shows only at particular magnitudes", "anchors": ["lib/mat.rs:1-1671", "lib/quat.rs:245-453"]}
{"id": "C93", "title": "In a unit of length that differs by a power of two every intersection query gives the same answer, bit for bit", "statement": "Multiply every position, radius, side and height of two shapes by 2^k and every direction and normal by some other powers of two (shifts of at most 100 places, all numbers zero, not finite or of size between 2^-40 and 2^40). Then both constructors still succeed and the f64 query returns the same flag or panic, and the reported location times exactly 2^k. For the pairs whose test involves the tolerance, the tolerance has to be set to a length that is multiplied too; two rays need tolerance 0, or, if they are not nearly parallel, the same tolerance in both units (such as the default). A segment against a prism is covered for coordinates that are multiples of 1/1024 up to 1024. Not so with the built-in tolerance of 1e-6, and not for two rays whose tolerance is changed with the unit: the code compares it with a number that is not a length.", "quantifier": "for all ways of constructing two shapes of the seven kinds with numbers in range (NaN and infinities included), both orders, all tolerances in range, all shifts of at most 100 places", "why_tests_cant": "every rounding of every branch must fall the same way in all units; an absolute constant or a missing factor only shows at magnitudes a test does not try", "anchors": ["lib/ray.rs:54-260", "lib/sphere.rs:41-130", "lib/plane.rs:56-90", "lib/point.rs:39-90", "lib/triprism.rs:17-350", "lib/bound.rs:22-130"]}
{"id": "C94", "title": "In a unit of length that differs by a power of two the collision query of two spheres takes the same course, turn by turn", "statement": "Multiply the centres and radii of two spheres by 2^k. The f64 GJK query then gives the same answer or panic, after the same number of turns of its loop, however many; it runs for ever in one unit exactly if it does in the other. This holds if all numbers are zero, not finite or of size between 2^-m and 2^m with |k| + 3m <= 125, and the centres are not both at 0 along the first axis. Not so outside such a range: two balls clearly apart are reported as intersecting after dividing all lengths by 2^400, because the search direction is a product of three lengths and underflows to zero.", "quantifier": "for all centres and radii in range (NaN and infinities included), all shifts in range, all numbers of turns", "why_tests_cant": "the loop has no bound on its number of turns and every rounding in every turn must fall the same way in both units; a run that never ends cannot be observed", "anchors": ["lib/intersect_gjk.rs:6-103", "lib/sphere.rs:131-146"]}
{"id": "C95", "title": "Turning everything by a quarter about the z axis turns the answer, bit for bit", "statement": "Exchange the first two coordinates of all positions, directions and normals of two shapes and flip any signs (so also: turn them by a quarter about the z axis). The intersection query then gives the same flag or panic, and the location turned in the same way, bit for bit up to the signs of zeros, with default and with any tolerances. Excepted: a ray with a point; a sphere with a point if signs are flipped; prisms unless the orientation is kept. Not so for a ray with a point (the parameters of the coordinates are compared in a row, not all with each other) and not for exchanging y and z (the order of the sums changes, and two balls that miss each other touch).", "quantifier": "for all floats of every lawful format (NaN and infinities included, except in the corners of segments and prisms), all supported and unsupported pairs of shapes, all tolerances", "why_tests_cant": "equality bit for bit over all pairs of floats cannot be sampled; the one order of summation that breaks it shows only for inputs a rounding away from touching", "anchors": ["lib/point.rs:12-97", "lib/ray.rs:15-282", "lib/sphere.rs:15-160", "lib/plane.rs:15-111", "lib/rbox.rs:16-123", "lib/line.rs:15-111", "lib/triprism.rs:28-398", "lib/bound.rs:22-132"]}
{"id": "C96", "title": "The collision query of mirrored spheres takes the same course, but not in the first axis", "statement": "Mirror two spheres in the second axis, the third, or both: the f64 GJK query gives the same answer or panic after the same number of turns of its loop, however many. Mirror them in the first axis (and any others) and exchange them: the same. Not so for mirroring in the first axis alone, nor for exchanging the two spheres alone: two balls clearly apart are reported as intersecting in one order and as apart in the other. Nor for exchanging the second and the third axis, which changes the order of sums: of two congruent pairs of touching balls only one is found.", "quantifier": "for all centres and radii (NaN and infinities included), all numbers of turns", "why_tests_cant": "the loop has no bound on its number of turns, and the equality is of every rounding in every turn; the failures need particular positions", "anchors": ["lib/intersect_gjk.rs:6-103", "lib/sphere.rs:131-146"]}
{"id": "C97", "title": "Spheres one beside the other along the first axis: the f64 collision query is decided by their order", "statement": "If, along the first axis, the first sphere ends before the second begins or where it begins, the f64 GJK query answers Some(false) in its first turn, whatever the other coordinates (infinities and NaN included) and whatever the size and sign of the numbers. If the centres differ in the first coordinate only, the answer comes in the first turn and is whether x1 + r1 - (x2 - r2), as computed, is positive. So if then the first centre is the larger one, the answer is Some(true), however far apart the spheres are.", "quantifier": "for all finite f64 first coordinates and radii (at most 2^1000 for the second and third part), all other coordinates (finite and equal for the second and third part), all numbers of turns allowed", "why_tests_cant": "the wrong answers hold for a whole half space of positions, at any distance, including all those where the rounded sums are inexact", "anchors": ["lib/intersect_gjk.rs:6-103", "lib/sphere.rs:131-146"]}
{"id": "C98", "title": "Long chains of matrix products and of matrices applied to a vector in floating point", "statement": "Multiply n matrices (3x3 or 4x4, one storage order) from left to right, or apply them to a vector one after the other, where the rows of each are within d of those of an orthogonal matrix. As long as n(8d + 24u) stays below one, nothing panics or overflows, every entry of the computed product is within that bound of the exact product of the orthogonal matrices, and its rows are orthonormal up to three times the bound; the vector is within n((4d + 20u)|v| + 18 eta) of the exact one. For f64: the product of the rotation matrices of up to 2^41 quaternions normalised by the library is within (n+1) 2^-42 of the matrix of the rotation by the exact product of the unit quaternions.", "quantifier": "for all lists of matrices near orthogonal ones of any length up to the bound, both matrix types, both storage orders, all vectors in range, every lawful format", "why_tests_cant": "the number of factors is unbounded up to 2^41 and rounding differs in every step", "anchors": ["lib/mat.rs:965-1010", "lib/mat.rs:1292-1340", "lib/quat.rs:151-200", "lib/quat.rs:349-361"]}
{"id": "C99", "title": "Laws of the spherical interpolation in exact arithmetic", "statement": "interpolate_slerp run backwards (ends exchanged, parameter 1-t) gives the same quaternion, negated if the ends are more than 90 degrees apart; multiplying both ends by a unit quaternion from the left or the right multiplies the result by it; for unit ends at most 90 degrees apart and not nearly parallel the result is start * (start^-1 end)^t computed with the crate's inverse, mul and pow, and interpolating by c between the points at a and b of an arc gives the point at (1-c)a + cb. Replacing end by its negative (the same rotation) changes nothing for nearly parallel ends; elsewhere it does, down to the length of the result.", "quantifier": "for all pairs of finite quaternions (unit where stated), all parameters in exact arithmetic", "why_tests_cant": "identities between interpolations at arbitrary real parameters and ends; samples cover finitely many and compare with a tolerance", "anchors": ["lib/quat.rs:455-510", "lib/quat.rs:382-434"]}
{"id": "C100", "title": "Undoing a rotation", "statement": "In exact arithmetic the rotation matrix of a unit quaternion is undone, on every vector, by its transpose, by the column-major matrix of the same quaternion, and by the matrices of the conjugate and of the inverse quaternion. Mat4::inverse does not undo it: it returns the matrix itself, so that applying it rotates the point a second time; it undoes the rotation exactly for half turns and the identity. With rounding, a matrix with rows within d of an orthogonal one and its transpose give every vector back to within 2((8d + 20u)|v| + 18 eta), in either order; for the f64 matrix of a quaternion normalised by the library to within 2^-41 of its length.", "quantifier": "for all unit quaternions and all vectors in exact arithmetic; for all matrices near orthogonal ones, both types, every lawful format", "why_tests_cant": "statement over all rotations and vectors; a test with a half turn or a symmetric matrix would pass although inverse is wrong for all other rotations", "anchors": ["lib/quat.rs:151-200", "lib/quat.rs:402-434", "lib/mat.rs:1525-1656", "lib/mat.rs:1326-1349"]}
{"id": "C101", "title": "Rigid motions: rotating with rotate_vector and translating with plus", "statement": "In exact arithmetic, rotating by a unit quaternion with rotate_vector and adding a translation with plus preserves distances, composes (the quaternions multiply, the first translation is moved by the second motion), and is undone by subtracting the translation and rotating with the inverse or the conjugate quaternion. In floating point a chain of n such motions never overflows in range and is within n((9d + 308u)L + 66 eta) of the exact chain, L the sum of the lengths of the point and of all the translations; in f64 with quaternions normalised by the library: n(2^-44 L + 2^-1068), up to 2^44 motions; two points moved together keep their distance up to twice that; moving and undoing returns the point up to 2^-43(|v|+|t|). The error is not bounded by the length of the point alone, and the rotation and translation matrices of the library do not compose to a motion.", "quantifier": "for all unit quaternions, translations, points; in floating point for all lists of motions, all points in range, every lawful format", "why_tests_cant": "statement over all lists of motions of any length and all points; error growth over long chains is not visible in single operations", "anchors": ["lib/quat.rs:95-200", "lib/quat.rs:402-434", "lib/mat.rs:367-384", "lib/mat.rs:1326-1349"]}
{"id": "C102", "title": "Unions of unions of bounds: a bounding volume hierarchy", "statement": "A box got from boxes by any number of levels of get_union contains each of them and is the least such box; two hierarchies over the same boxes without NaN have numerically the same root whatever their depth, order and grouping; a box that intersects one of the boxes intersects every box above it, so a search that descends only where intersect answers true misses nothing; in particular if two shapes made by the constructors share a point, the bound of one intersects every box above the bound of the other, whatever the rounding. For a box with a NaN bound the pruning claim is false.", "quantifier": "for all trees of unions of any depth and width, all boxes, all formats; for the shapes every lawful format", "why_tests_cant": "statement over all trees of unions and all queries; a test builds one tree", "anchors": ["lib/bound.rs:AxisAlignedBBox::get_union"]}
{"id": "C103", "title": "Laws of Mat4::inverse", "statement": "In exact arithmetic: the inverse of a product is the product of the inverses in the same order, and in the reverse order (the law of the textbooks) exactly if the matrices commute; inverse applied twice gives the matrix back, except that it is None when |det| > 1/EPSILON; inverse commutes with transpose; the transposed result and the result for the transposed matrix both solve linear systems, for every right-hand side, with the only solution; the inverse of a scaled matrix is the inverse scaled by the reciprocal while the determinants stay above the threshold; every invertible matrix has a multiple without inverse.", "quantifier": "for all pairs of real matrices with determinants above the threshold, all vectors, all scalars", "why_tests_cant": "algebraic laws over all matrices; the existing tests use single matrices", "anchors": ["lib/mat.rs:Mat4::inverse"]}
{"id": "C104", "title": "A reported location put to the point queries of the same shapes", "statement": "In exact arithmetic the location reported for ray and sphere, ray and plane, two spheres (not both points), a sphere and a plane that meet, a prism and a segment, or two rays that meet, is accepted by the point query of each of the two shapes (for rays: if no component of the direction is zero). In binary64 the plane still accepts the location reported for a sphere (coordinates up to 2^20) and for a ray that descends at a cosine of at least 1/8 from at least 1e-8 above it (coordinates up to 2^16). It fails in binary64 for ray and sphere and for a ray parallel to the plane, and in any arithmetic for a sphere behind the plane and for skew rays.", "quantifier": "for all shapes of these kinds with real parameters; for all binary64 shapes within the stated ranges", "why_tests_cant": "relates two queries on every pair of shapes; the failures depend on single roundings", "anchors": ["lib/ray.rs:Ray3::get_intersect", "lib/sphere.rs:Sphere::get_intersect", "lib/plane.rs:Plane::get_intersect", "lib/triprism.rs:TriPrism::get_intersect"]}
{"id": "C105", "title": "Reflections compose to rotations, and rays reflect along shortest ways", "statement": "In exact arithmetic: reflection_in_plane with one pure quaternion and then with another equals rotate_vector with their product; every unit quaternion acts like two reflections in planes with unit normals; rotating the normal and the vector rotates the mirror image; the cross product of mirror images is the negated mirror image of the cross product; a ray found to hit a plane and continued from the reported location in the direction given by reflection_in_plane reaches each of its points by the shortest way that touches the plane. In every floating-point format, for a quaternion with real part zero, reflection_in_plane is bit for bit (up to signs of zeros) the negated rotate_vector. In binary64 with a normalised quaternion the result is within 2^-46 |v| + 2^-1071 of the mirror image, keeps the length up to 2^-45 |v| + 2^-1070 and reflecting twice comes back up to 2^-44 |v| + 2^-1069. A unit quaternion with a real part is no mirror: it shortens vectors.", "quantifier": "for all pure/unit quaternions, all vectors, all rays and planes that meet, all points reached; all floats including NaN for the bitwise law; all binary64 values in the stated range for the bounds", "why_tests_cant": "laws over all planes, vectors and ways; the error bounds need every rounding", "anchors": ["lib/quat.rs:Quat::reflection_in_plane", "lib/quat.rs:Quat::rotate_vector", "lib/ray.rs:Ray3::get_intersect"]}
{"id": "C106", "title": "The two collision queries on spheres agree", "statement": "In exact arithmetic, for two spheres whose centres differ in more than the first coordinate and which do not just touch, query_intersect returns, within a number of turns logarithmic in the distance from touching, Some(true) exactly when get_intersect finds a location and Some(false) exactly when get_intersect reports none; the answer does not depend on the order of the two spheres (touching ones included, whenever both orders return). In binary64, for spheres more than 2^-46 M from touching: if query_intersect answers Some(false) then get_intersect answers (false, none), and if the spheres overlap then every answer of either query is that they meet. For touching spheres the two queries disagree, and along the first axis with a gap the answers of query_intersect for the two orders differ.", "quantifier": "for all pairs of spheres with non-negative radii in the stated position, all turn limits; in binary64 all centres and radii in the range of C82", "why_tests_cant": "compares two algorithms, one of them an iteration, on a continuum of inputs", "anchors": ["lib/intersect_gjk.rs:query_intersect", "lib/sphere.rs:Sphere::get_intersect"]}
{"id": "C107", "title": "The computed inverse of a rotation matrix, in binary64", "statement": "For every f64 matrix whose rows are within d <= 2^-12 of those of an orthogonal matrix U, Mat4::inverse returns Some, stored by rows, and the rows of the result are within 4 d + 2^-36 of those of U itself (not of its transpose). In particular for to_rotation_matrix(true) of any quaternion normalised by the library: the inverse is the rotation matrix itself up to 2^-35 in every entry, applying it to the rotated vector rotates a second time up to 2^-30 |v| + 2^-1000, its transpose rotates back up to the same error, and inverting twice gives the rotation matrix up to 2^-33. For (1+i+j+k)/2 the inverse does not take the rotated (1,2,3) back.", "quantifier": "for all f64 matrices near an orthogonal one, all quaternions normalised by the library, all vectors up to 2^1000", "why_tests_cant": "bounds every rounding of the 4x4 cofactor expansion over all rotations", "anchors": ["lib/mat.rs:Mat4::inverse", "lib/quat.rs:Quat::to_rotation_matrix", "lib/mat.rs:Mat4::mul_mat4x1"]}
{"id": "C108", "title": "Searching through a hierarchy of bounds finds exactly what querying every shape finds", "statement": "Take a binary tree whose leaves are shapes and whose inner nodes carry the get_union of the bounds below them. The search that skips a node when IBound::intersect of the query shape's bound and the node's box answers false, and calls get_intersect at the leaves, returns exactly what calling get_intersect on every leaf returns: the same shapes in the same order, bit for bit the same locations, and the same panic if one of the queries panics. Two trees over the same shapes give the same hits up to order. This needs leaf bounds without NaN: a sphere with NaN centre is reported by get_intersect, but skipped by the search.", "quantifier": "for all trees built with get_union, all query shapes, all shapes of all types, in every floating-point format and in exact arithmetic", "why_tests_cant": "all trees of all depths over all float inputs", "anchors": ["lib/bound.rs:AxisAlignedBBox::get_union", "lib/bound.rs:AxisAlignedBBox::intersect", "lib/i_shape.rs:IShape::get_intersect"]}
{"id": "C109", "title": "Following a ray through a scene finds what it meets first", "statement": "A program queries a ray with get_intersect against every shape of a scene of spheres and planes and keeps the reported location whose distance from the ray's origin (minus, magnitude) is smallest. In exact arithmetic it never panics; it reports nothing exactly when the ray meets none of the surfaces; otherwise it reports a point of the ray on the surface of the shape it names, and no surface is met earlier, so the segment to that point is free. Spheres may be seen from inside or outside, planes from the side their normal points to. The point does not depend on the order of the scene, and searching a hierarchy of bounds gives the same answer. A plane seen from behind is overlooked, and the program then reports what lies behind it.", "quantifier": "for all rays with non-zero direction, all finite scenes of spheres with non-negative radius and planes facing the origin of the ray, in exact arithmetic", "why_tests_cant": "scenes of every size, real-valued data, a minimum over infinitely many points", "anchors": ["lib/ray3.rs:Ray3::get_intersect", "lib/sphere.rs", "lib/plane.rs", "lib/mat.rs:Mat3x1::magnitude"]}
{"id": "C110", "title": "Following a ray through a scene, in binary64", "statement": "The program of C109 run in f64, on spheres and planes that the ray clearly meets or clearly misses (beside, behind, around or ahead by the margins of C66; planes facing the origin, with the ray rising from them or descending at a cosine of at least 1/8). It does not panic; it reports nothing exactly when the ray meets none of the surfaces; otherwise the reported location is within eps, in every coordinate, of a point of the ray on the surface of the shape it names, and no surface is met more than 9/2 eps before that point. Searching a hierarchy of bounds gives the same answer bit for bit. The tolerance is needed: two concentric spheres met at 4 and at 4 - 2^-52 get the same computed distance, and the farther one is reported if it is listed first.", "quantifier": "for all f64 rays with direction components zero or between 2^-511 and 2^510, all finite scenes with coordinates and radii at most M, 2^-480 <= M <= 2^500, all eps between 2^-38 M and M", "why_tests_cant": "scenes of every size, all f64 data, the comparison is with exact real geometry", "anchors": ["lib/ray3.rs:Ray3::get_intersect", "lib/sphere.rs", "lib/plane.rs", "lib/mat.rs:Mat3x1::magnitude"]}
{"id": "C111", "title": "A convex quadrilateral split into two prisms", "statement": "Take a convex quadrilateral (its diagonals cross), and build one prism over each of its two halves with the same positive height. In exact arithmetic the pair has no gap along the shared wall and no excess: a point is reported by at least one of the two prisms exactly when it lies in the slab over the quadrilateral (the convex hull of the eight vertices), and a segment that meets the slab is reported by at least one of them at a point it shares with the slab, while a segment that does not is reported by neither. In f64 the wall leaks: over (0,0) (2,-2) (3,1) (1,3) with height 2 the f64 point next to (0.9, 0.3, 1) is missed by both prisms, although everything within 1/10 of it lies in the slab.", "quantifier": "for all convex quadrilaterals, all positive heights, all points and all proper segments; the leak is a concrete witness", "why_tests_cant": "the shared wall has measure zero for random points, and the hull of eight vertices is real geometry", "anchors": ["lib/triprism.rs:TriPrism::init", "lib/triprism.rs:TriPrism::get_intersect"]}
{"id": "C112", "title": "A viewing frame from a direction and an upward vector", "statement": "A client builds f = normalize(d), r = normalize(f x up), v = r x f and Mat3::init of the rows r, v, -f, in either layout. If d and up are not parallel, then in exact arithmetic the matrix is a rotation (orthogonal, determinant 1) that turns d to the negative third axis and up into the upper half of the plane of the second and third axis, it is the only such rotation, it keeps lengths, and its transpose undoes it. In f64, with |d| * Q <= kappa |d x up| (Q a bound of the components of up, kappa <= 2^40), all entries are finite and within 2^-45 kappa of that rotation. Without a condition on the angle this fails: (3,1,0) and (5, fl(5/3), 0) are not parallel, and the computed frame is NaN.", "quantifier": "for all non-parallel pairs of real vectors; for all f64 vectors with components of d at most 2^500, |d| >= 2^-480, 2^-400 <= Q <= 2^400, 1 <= kappa <= 2^40; for both layouts", "why_tests_cant": "existence and uniqueness of a rotation are statements about all real matrices; the rounding bound is for all f64 vectors", "anchors": ["lib/mat.rs:Mat3x1::normalize", "lib/mat.rs:Mat3x1::cross", "lib/mat.rs:Mat3x1::scale", "lib/mat.rs:Mat3::init", "lib/mat.rs:Mat3::mul_mat3x1", "lib/mat.rs:Mat3::transpose"]}
{"id": "C113", "title": "A moving ball first touches where the ray meets the grown obstacle", "statement": "A client finds the first contact of a ball of radius r moving from o along d by querying Ray3(o,d) against the resting sphere (c, R+r), or against the plane (a + r n/|n|, n). In exact arithmetic, if the sphere query of the ball at o reports no intersection: a reported hit p is on the path, the ball at p is reported to intersect the obstacle in their only common point, and at every earlier position of the path the sphere query reports no intersection; if the ray query reports a miss, the sphere query reports no intersection at every position of the path. For two balls with velocities v and w the same ray along v - w finds the time of first contact. In f64 this fails: the ball of radius 3 from (2,0,-8) along (0,0,1) is reported to reach the ball of radius 3 at the origin, but at the reported position the two are reported apart.", "quantifier": "for all origins, non-zero directions, centres, planes, radii r, R >= 0 with R + r > 0, and all positions of the path", "why_tests_cant": "a path has infinitely many positions; the claim relates three different query branches at each of them", "anchors": ["lib/ray.rs:Ray3::get_intersect", "lib/sphere.rs:Sphere::get_intersect", "lib/sphere.rs:Sphere::init", "lib/plane.rs:Plane::init"]}
{"id": "C114", "title": "Cutting a prism into smaller prisms", "statement": "A client refines a TriPrism by cutting its base triangle at an inner point into three triangles, or by cutting its height into two. In exact arithmetic a point is found by the query of the whole exactly when it is found by the query of one of the parts, and a segment of positive length is found by the whole exactly when it is found by one of the parts. In f64 the cut leaks: (0.9, 0.3, 1) is found by the prism over (0,0), (6,-2), (3,5) and by none of the three prisms cut at (3,1).", "quantifier": "for all triangles that are not degenerate, all inner points, all positive heights, all points and all segments of positive length", "why_tests_cant": "points on the cuts have measure zero, and gaps of one rounding error are not hit by random points", "anchors": ["lib/triprism.rs:TriPrism::init", "lib/triprism.rs:TriPrism::get_intersect"]}
{"id": "C115", "title": "Cutting a segment, and bisecting it, against a prism", "statement": "A client cuts a segment at a point between its ends: in exact arithmetic the prism is hit by the whole segment exactly when it is hit by one of the two pieces. A client bisects: it queries the first half, keeps it if it is hit, and otherwise keeps the second half. This never gets stuck, and if the query of the whole segment reports p and the segment starts inside or ends outside the prism, then after n turns the narrowed segment contains p, has length |b-a|/2^n, and its end is at most that far from p.", "quantifier": "for all prisms that are not degenerate and have positive height, all segments of positive length, all cuts, all numbers of turns", "why_tests_cant": "the loop may take any number of turns, and the narrowed segments are different for every input", "anchors": ["lib/triprism.rs:TriPrism::get_intersect", "lib/line.rs:Line3::init"]}
{"id": "C116", "title": "The bounds of a moved ball or box lose no hit, with rounding", "statement": "A client moves a Sphere or RecBox from one position to another and discards every shape whose bounds do not intersect get_union of the bounds at the two ends. In every lawful format, f64 included, if the ball or box of finite size at a position each coordinate of which is between those of the two ends is reported to intersect a shape of any kind, then the union intersects the bounds of that shape: no hit is lost to rounding. The position must really be between the ends: computed in f64 as o + 1*(o' - o) it can be beyond the end, and then a hit is lost.", "quantifier": "for all positions (infinities included), all finite sizes, all shapes (of every kind, however built), every lawful rounding", "why_tests_cant": "the loss would be one rounding error wide and depend on the rounding of every intermediate position", "anchors": ["lib/bound.rs:AxisAlignedBBox::get_union", "lib/bound.rs:AxisAlignedBBox::intersect", "lib/sphere.rs:Sphere::init", "lib/rbox.rs:RecBox::init", "lib/sphere.rs:Sphere::get_intersect", "lib/rbox.rs:RecBox::get_intersect"]}
{"id": "C117", "title": "Line of sight past a ball is mutual, past a plane it is not", "statement": "A client takes the view from a to b as blocked if the query of Ray3(a, b-a) reports a location no farther from a than b. In exact arithmetic, for a viewer not inside the ball, the view past a Sphere is blocked exactly when the segment meets the ball, so for two places outside the ball sight is mutual. Past a Plane it is not: whenever a is behind and b in front, the view from b to a is blocked and the view from a to b is not. In f64 it is not mutual past a ball either: between (17,-31,0) and (31,17,0), with the ball of radius 25 about the origin, only the view back is blocked.", "quantifier": "for all balls of radius >= 0 and all pairs of distinct places not inside it; for all planes and all pairs of places on opposite sides", "why_tests_cant": "a statement about all pairs of places; the f64 failure needs a ray that touches the ball", "anchors": ["lib/ray.rs:Ray3::init", "lib/ray.rs:Ray3::get_intersect", "lib/sphere.rs:Sphere::init", "lib/plane.rs:Plane::init"]}
{"id": "C118", "title": "A ball moving through a scene is stopped by the right obstacle at the right place", "statement": "A client moves a ball of radius r >= 0 from o along d through a list of resting Spheres and Planes, by following the Ray3(o, d) through the obstacles grown by r and keeping the nearest reported location. In exact arithmetic, if the ball at o is reported apart from every obstacle, this never panics. If nothing is found, the ball at every position of the path is reported apart from every obstacle. Otherwise the location found is on the path, the ball there is reported to meet the obstacle named, and the ball at every earlier position is reported apart from every obstacle of the scene.", "quantifier": "for all scenes (lists of any length of Spheres of radius >= 0, grown radius > 0, and Planes), all starts, directions and radii >= 0", "why_tests_cant": "scenes of every size, and every one of the uncountably many earlier positions", "anchors": ["lib/ray.rs:Ray3::init", "lib/ray.rs:Ray3::get_intersect", "lib/sphere.rs:Sphere::get_intersect", "lib/plane.rs:Plane::init"]}
{"id": "C119", "title": "What a sphere of negative radius answers", "statement": "Sphere::init accepts any radius. In exact arithmetic, for radii of any sign, two Spheres are reported apart if the distance of the centres exceeds the sum of the radii, and if that sum is positive they are reported to meet otherwise. If the sum is 0 and the centres agree they are reported to meet at a location of NaN coordinates. So a Sphere of radius -rho, rho >= 0, asked against a Sphere of radius R > rho answers whether the closed ball of radius rho lies inside the ball of radius R, with a location in the smaller ball; and asked against a Plane it answers whether that ball lies wholly behind or on the plane. A Ray3 does not see it consistently: in f64, the ray along an axis through the centre of a Sphere of radius -1 is reported to miss and the diagonal one to hit.", "quantifier": "for all centres, all radii of either sign, all planes", "why_tests_cant": "no test passes a negative radius; the claim ranges over all of them", "anchors": ["lib/sphere.rs:Sphere::init", "lib/sphere.rs:Sphere::get_intersect", "lib/ray.rs:Ray3::get_intersect", "lib/bound.rs:AxisAlignedBBox::init"]}
{"id": "C120", "title": "Support points of shapes of negative size", "statement": "In exact arithmetic and for a non-zero direction, get_support of a RecBox whose size has any sign is a point of the cube of the absolute size that is farthest in the direction. get_support of a Sphere of radius -rho is instead the point of the ball of radius rho that is nearest, i.e. farthest in the opposite direction; so no Sphere of negative radius answers with a farthest point.", "quantifier": "for all centres, sizes of either sign and non-zero directions", "why_tests_cant": "no test passes a negative size; the claim ranges over all sizes and directions", "anchors": ["lib/sphere.rs:Sphere::init", "lib/sphere.rs:Sphere::get_support", "lib/rbox.rs:RecBox::init", "lib/rbox.rs:RecBox::get_support"]}
