# Formal model of pt.rs in Lean 4

## 1. Approach

The code under /repo is a path tracer: mostly pure numeric functions, a few
stateful objects (samplers, film, iterators) and one multi-threaded driver.

* **Numbers.** All numeric functions are written once, polymorphically over a
  class `Scalar α` (arithmetic, comparisons as `Bool`, `min`/`max`, floor,
  casts ...) and `Libm α` (sqrt, sin, exp, pow ...).  Instances:
  * `ℝ`: exact real arithmetic.  Used where the claim is about geometry or
    algebra.  Division by zero is never relied on: each such theorem has
    hypotheses or proofs that the divisor is non-zero.
  * `Fl φ K`: IEEE-754-like values `nan | ±inf | ±m` (signed zeros) over an
    ordered field `K`, parameterised by a rounding `φ` satisfying laws
    (monotone, idempotent, overflow upward closed).  Theorems on NaN, infinities, signed
    zeros and rounding are proved for every lawful rounding.
    `F32 = Fl Binary32 ℚ` is the concrete round-to-nearest-even binary32
    format (its laws are proved, not assumed); `Exact K` is the format without
    rounding (used to have infinities together with exact arithmetic).
  * libm functions are an arbitrary parameter for the float types: a theorem
    about `Fl` holds for every implementation of sin, exp, pow, sqrt unless it says otherwise.
* **Integers.** `i32`/`usize` values are `Int`/`Nat`.  Where the code may overflow
  the model makes it explicit (wrapping `% 2^32`, saturating casts, or an `Option` for panics).
  The iterators over pixels and tiles use unbounded integers; `Props/Wrap` transcribes them with wrapping `i32` operations and
  proves where the two agree.
* **Panics** are explicit `none`/error values.
* **Trait objects** (`Shape`, `Light`, `Material`, `BxDF`, `Sampler`, `Filter`) are structures of
  functions, so theorems quantify over every implementation satisfying a stated contract.
* **Threads**: a small-step transition system with explicit lock ownership and
  pixel-by-pixel merging; theorems quantify over all reachable states.

Layout: `Verif/Model/*` (one module per source file, every definition cites its
lines), `Verif/Lemmas/*` (helpers), the namespace `PT.Spec` (independent specifications, at the top of the file that uses them),
`Verif/Props/*` (the property theorems, each followed by a concrete non-vacuity `example`).

## 2. Plan per property

| id | model | proof |
|----|-------|-------|
| C01 | `BBox2iIter.next` as state machine | induction on remaining points; list equals row-major product list; also with wrapping `i32` arithmetic (`next32`) |
| C02 | `FilmTileIter.next` | induction; every point in exactly one tile; refinement of the wrapping `i32` code (`new32`, `next32`) to it |
| C03 | `get_film_tile`, `add_sample` over ℝ, and in f32 for radii on a grid of 1/1024 | touched set characterised; floor/ceil lemmas; in f32 tile borders are exact and rounding is monotone |
| C04 | same, over every `Scalar` | clipped ranges imply index bounds |
| C05 | tile accumulation and merge over ℝ; over `F32` | fold/sum commutation, permutation invariance; in `F32` the error of the sums within a tile and of merging (C98, C119) |
| C06–C08 | small-step render system | inductive invariant; measure; progress lemma |
| C09–C11 | `write_image_ppm` over `Fl` / ℝ | case analysis on float classes, monotonicity; C10, C11 also in f32: rounding error bounds, and each step is monotone because rounding is; the power function is a parameter assumed monotone (C11) and accurate to 2^-20 (C10) |
| C12 | file = byte list, write without truncation | refutation by witness; partial: prefix is the image, exact when the old file is not longer |
| C13 | `Pixel` accumulators over `Fl` | invariant over operation sequences |
| C14 | `GaussianFilter` over ℝ and in f32 (`expf` a parameter, assumed monotone and accurate) | monotonicity of exp; monotone rounding; an error bound on the two exponents |
| C15–C17 | Halton digit loops on naturals mod 2^32; the division over ℝ and in f32 | loop invariants; errors of the two conversions and of the division |
| C18–C19 | `extended_gcd`, `multiplicative_inverse` | strong induction; refutation by witness, partial up to sign |
| C20–C21 | `get_index_for_sample` | refutation by witness; partial theorems by CRT argument |
| C22–C23 | sampler state machines | induction over call sequences |
| C24 | `li` run with a counting sampler; prime table | bound by loop analysis; table checked by kernel computation over its full (finite) domain |
| C25 | `get_camera_sample` | ℝ: strict; F32: closed bound for every lawful rounding, strictness refuted |
| C26 | random sampler clone | refuted: clones of equal state give equal streams |
| C27 | `Simple::intersect` over lawful shapes | induction over the list |
| C28–C32 | `KdTree::new`, `build`, `intersect`, `intersect_p` on the node array | tree invariant by induction on the build; traversal invariant on the stack |
| C33–C35 | `BBox3f` over `Fl` and ℝ | order lemmas; slab arithmetic with infinities |
| C36–C41 | sphere and triangle | algebra over ℝ; case analysis over any `Scalar` |
| C42–C45 | triangle sample, mesh, ray spawning | algebra; order lemmas in `Fl`; C42 also in f32, by propagating error bounds through the weights and the coordinates |
| C46–C52 | matrix, transform, camera | polynomial identities (`ring`, `field_simp`) |
| C53–C62 | scattering functions | real algebra (C62 for any numbers of samples); C53 (including the direction a smooth mirror samples), C54 and C62 also in f32 with rounding error bounds; C55 (dielectric) also in f32: the cosine of the refracted ray is at least 2^-13 outside total reflection, so no quotient is 0/0; C57 also in f32, for any libm whose square root and sine/cosine are right within 2^-22 |
| C61 | choice of a component (`BSDF::sample_f`) and of a light, `F32` | a product just below an integer is rounded below it, one at least an integer is rounded to at least it; shares follow; then the functions that use the index are unfolded |
| C59 | microfacet sampling | density characterised through the cdf; refutation by witness; the change of solid angle by differentiating the half vector along great circles |
| C63–C65 | lights, builder | algebra, list induction |
| C66–C67 | `li` with fuel-free structural recursion on bounces | induction; in f32 (`RadianceF32`) a contract per component, with the dielectric Fresnel term rounded into [0,1]; metals refuted by a witness (`MetalF32`) |
| C68 | roulette as integral over [0,1); in f32 as a sum over the 2^24 values of the generator | interval integral; counting the surviving values, rounding error bounds |
| C69 | area light pdf | refutation by witness |
| C70 | bit-level f32 ordinals | order isomorphism |
| C71–C74 | utilities, surface frames | case analysis / algebra; C74 refuted for a zero interpolated normal and at the poles of spheres |
| C75 | visibility tester of a distant light | refutation with two triangles; partial: every occluder before the last 0.0001 of the segment |
| C76 | the whole render; the questions a path can ask the scene | induction over the path program; library shapes, materials, lights and containers answer every question except for one kind of NaN direction; bounds on every number that goes into a traced direction of a scene of matt triangles and spheres (where a hit of a sphere at its centre or at a pole is all NaN), so that none is lost in single precision; a finite scene that reaches the exception; refutation for area lights on spheres |
| C77 | the sampler's calls | induction over the requests with the sampler's state as invariant |
| C78 | the path program as a random variable; separate recursive specification without loop, path weight, roulette or choice of a light | induction on the bounces left; the mean is taken with the Lebesgue integral; light choice by cutting [0,1) into cells |
| C79 | the questions boxes answer; separate definitions of points of a box, faces and enclosing balls | comparisons by the order of floats (point in both boxes: larger of the lower corners), measures by algebra; minimality of the ball from the two opposite corners |
| C80 | the constructors of transforms applied to points, vectors, normals; Rodrigues' formula as specification of rotations | algebra on the matrix entries |
| C81 | the diffuse sampler as a random variable of two uniform numbers; hemisphere integral in spherical coordinates as specification | one-dimensional substitutions in each wedge of the square, Tonelli, a full turn put together from quarter turns, then r = sin θ |
| C82 | all five materials with their components; formulas in coordinates of the shading frame as specification | algebra from the orthonormal frame, cases on black components |
| C83 | the reflectances of C82 against those of the right side | strict monotonicity of the gloss in the Fresnel factor; false for plastic and for rough glass from inside |
| C84 | relative error of every rounded operation (Lemmas/RelErr), composed along the computation of the hit point | error analysis over ℚ and ℝ; false for spheres away from the origin |
| C85 | the mean radiance of C78 at a hit on a mirror | the sampled direction of a mirror does not depend on the sample (C82), so the means are of constants; false for lamps seen in a mirror |
| C86 | fields of the hit record against the parametrized surface | derivative of the parametrization (HasDerivAt), trigonometric identities; false for spheres and for triangles with vertex normals |
| C87 | the delivered values of a pixel's samples (C77) as a function of sample number and dimension | digit reversal, arithmetic progressions modulo prime powers, Chinese remainder theorem; false where `base_n` wraps |
| C88 | radiance, tiles, film and file, with the channels of every colour compared | every operation on colours treats the channels alike; invariant of paths, tiles, merging and the file |
| C89 | both containers with the same shapes in other decoration | the containers never look at materials or lights: mapping the objects commutes with construction, sorting, traversal |
| C90 | two scenes, one with multiplied lights | relation between the two computations: same questions, same samples, multiplied results; then tiles, then the film by the sum over tiles of C06 |
| C91 | the triangle test in single precision, every operation with its rounding error | rounding is monotone, so a computed edge function never has the wrong sign; forward error analysis of the determinant, the distance and the error threshold |
| C92 | opening, buffered writing and dropping as a transition system with all answers of the operating system | invariant: image = written ++ buffered ++ to come |
| C93 | the same | the same invariant and a decreasing measure; false for errors of the last flush |
| C94 | the triangle test in single precision, every operation with its rounding error | all edge functions of a hit have one sign, so the distance is a weighted mean of those of the corners; a grid argument excludes underflow |
| C95 | the loop of the container over triangles in single precision | invariant of the loop: either the range still reaches the triangle in front, or the last hit is in front |
| C96 | the triangle test in single precision | error of the edge functions |
| C97 | construction and traversal of the k-d tree in single precision | invariant of the traversal: the pending regions have ordered intervals and a crossed shape is in one whose interval has its parameter; monotone rounding decides the side at each split |
| C98 | small-step render system with the Halton sampler, `F32` | every order of merging is the order of some schedule; concrete scene whose two orders round differently, carried through to the bytes of the file; commutativity of one addition for two tiles; standard error bound for four; with the accuracy of the output (C10 in f32) the numbers in two files differ by at most one |
| C99 | examples/helloworld.rs (scene, film, sampler, camera) and the run of `render` | its shapes and camera meet the bounds of C76 (closed numbers checked by evaluation in the kernel, the tangent and the look-at vectors by bounds); C06-C09 and C12 for the end of a run |
| C100 | glass material with roughness, microfacet transmission | value of C82 is positive; vector form of Snell; refutation for every pair with the directions on one side of the facet, from outside and from inside the glass |
| C101 | a scene as pieces without colours and a colour for each; integrator, film, renderer | relation between three runs that draw the same samples, kept by every step of the integrator and by the film; the shadow test that a black lamp skips cannot panic in exact arithmetic; induction over the lamps |
| C102 | sampler, per-tile loop, film, renderer | the tile is the fold of `add_sample` over the samples of its pixels (draws change only the dimension, `start_pixel` forgets the history); tiles partition the sampled region; sums of the merged tiles |
| C103 | the same, with C102 | weighted sums with non-negative weights; the pixel's own sample is within half a pixel of its centre; the first Halton point is the corner of the pixel; in `F32` from C119 |
| C104 | one-thread render, random sampler with any generator, camera samples as one drawing computation | invariant of the single worker gives the fold over tiles; means by induction over samples and pixels (each step adds a constant, so no measurability is needed); C78 for the mean radiance |
| C105 | integrator program, containers, builder, render system | equal answers off a set of rays give equal runs of the program along the sampler states of each pixel (`run_same`, `takeSamples_same`), hence equal tiles and equal schedules (`rreach_same`); closest hits are unique without ties (C27, C29, C30); the radius given to distant lights depends on the values of the box only (`radius_same`) |
| C106 | Halton sampler, integrator, film, render system | the number of samples per pixel is only read when a pixel is finished (`run_withSpp`); splitting the filtered sum of C102 |
| C107 | the model of C36, C38, C42, C44, C45 over ℝ; `MadeOn` (hits and sampled points of a triangle) and `NotAcross` in the specification | a ray that is in the plane nowhere in its range, unless parallel, misses (from C38 and the determinant); the push of C44 puts the origin weakly on the side of the direction, and a point beyond a tangent plane is off the sphere |
| C108 | the path loop with its roulette, direct light with both strategies and their weights, matt materials, spheres and triangles, builder, containers, render | `c108_sample`: induction on the bounces with a bound on the luminance of the path weight (grows by at most reflectance/0.95 per bounce); the power heuristic bounds light sampling by half the light, cosine sampling cancels; `c108_image` through `c103_between` |
| C109 | `look_at`, `perspective`, the composed camera transforms, `generate_ray` | `c109_seen_at`: closed form of the ray direction (C52), orthonormal axes, solving for the film position; the others are consequences of the formula |
| C110 | the five materials and their components' flags, values and densities | by cases on the branches of each material, for an arbitrary scalar type |
| C111 | the samples of a whole image as one computation that draws numbers (C104), the filtered pixel sums | mean and variance of independent parts add up (`expected_pair`), induction over samples and pixels; Chebyshev's inequality with a lower bound of the weight; the bound of C108 for matt scenes |
| C112 | the path tracer with all builder calls, film, file | a predicate 'no light' closed under the arithmetic, carried through direct lighting, the path loop, the film and the file; a lower bound carried through the path loop; the range theorem C103 for pixels |
| C113 | the path tracer at a matt surface under one distant light; film | the value of a matt BSDF on both sides and the side of its samples; the first direct-light estimate is the law, the bounced ray meets nothing; C107 for the absence of self-shadowing, C37 for the side a sphere shows; the range theorem C103 for pixels |
| C114 | triangle and sphere intersection, both containers, scene builder, renderer | the containers' answers without the shape (induction over the list; C28/C105 for the tree); single precision: a difference rounds to the negative of the swapped difference, so two edge values of a collapsed triangle cancel exactly and the signs or the zero determinant reject the ray; exact: the plane normal of a flat triangle is zero, so the determinant is; C105 carries equal answers to equal pictures |
| C115 | smooth glass and metal, specular components, Fresnel, the mean radiance of C78 | the sampled components of C82; the sample of the unit square is split at 1/2 for the choice between the two components, whose probability cancels; refracted directions are unique; reversibility of Fresnel's equations (C55) for the plate |
| C116 | camera construction and ray generation, look_at, perspective | the axes of the camera of C52 are determined by the viewing and up directions up to positive factors; two unit vectors that are positive multiples of each other are equal |
| C117 | direct lighting with several distant lamps, lamp choice, matt material | every branch of a look at a lamp yields its Lambert brightness; the sampled direction leaves the scene; mean through C78 |
| C118 | containers, spawned rays, shadow rays, direct lighting, matt material | a hit or a block reported by a container comes from a triangle; points of the ray are strictly in front of the plane, points of a triangle are not; then C117 and C78; for pixels C103 and C104 |
| C119 | film tiles, samples of a pixel, merging, gamma and output, all in f32 | an induction bounds the sum of n rounded terms by little more than n half-units, up to n = 12500; four merges, one division and the sRGB curve on top (C10, C98); all samples whose footprint has the pixel are in tiles that have it (C03 in f32), and they are counted |
| C120 | `length`, `normalize`, `dot`, `cross`, `construct_coordinate_system` in f32 | error propagation through sums of non-negative terms; the square root of a perturbed sum by squaring; overflow and underflow by witness |
| C121 | `apply` and `inverse_apply` for directions, normals and points in f32 | the error bound of a dot product (C120); the weight is a sum of exact zeros and one |
| C122 | `BSDF::new`, `world_to_local`, `local_to_world` in f32 | for a nearly orthonormal pair n, s and t = n x s an identity gives the deviation of the frame's product with its transpose from one; roundings by C120 |


Outcome.  The status of every property, the theorem names and what is missing are in `MANIFEST.json`.  These
properties turned out to be false of the code.  For each there is a theorem that exhibits a concrete input, and a
`_partial` theorem for what does hold:

| id | why it is false |
|----|-----------------|
| C10 | 0.5 is added before `round`, so every channel is one too high and black is written as 1 |
| C12 | the output file is opened without truncation |
| C19, C20, C21 | `multiplicative_inverse` takes the absolute value of a negative Bezout coefficient |
| C25 | `p + sample` rounds up to the next pixel in single precision |
| C26 | every worker clones the same generator |
| C29, C34 | a ray in a face plane of a box with direction `-0.0` across it: one plane is at `0 / -0.0`, NaN, and the slab is not ordered |
| C41 | with rounding a triangle can report a distance above the limit, or NaN |
| C51 | only two corners of a box are transformed |
| C59, C69 | reported pdfs are not the densities of the sampled directions |
| C63 | sampling ignores the vertex normals that hitting takes into account |
| C74 | opposite vertex normals interpolate to zero; at the poles of a sphere the tangent is zero |
| C83 | plastic swaps the two indices; rough glass always uses the reflectance of the outside |
| C84 | spheres: the error of moving the hit point from the sphere's coordinates to the world is not included in the bound |
| C85 | lamps seen in a mirror: their emission is added by the direct-light estimate (specular sample, weight 1) and again by the path loop after the specular bounce |
| C86 | spheres: texture coordinates in radians, tangents for coordinates in [0,1]; triangles with vertex normals: the first tangent is reversed (order of the cross products) |
| C87 | `base_n` wraps around in 32 bits: dimension 54 from the 547th sample on is almost always 1-2^-23 |
| C75 | a shadow ray stops at 0.9999 of the way to a point outside the scene |
| C91 | a triangle 2 long and about 2⁻²² wide: all edge functions round to zero and the ray passes |
| C93 | the `BufWriter` is dropped without `flush`: an error of the last write is ignored |
| C98 | The order in which the threads merge tiles shows in the rounding; a scene with two schedules that write 8 and 9 for the same pixel. |
| C100 | rough transmission does not check that the directions lie on different sides of the facet |

## 3. Trusted base

* Lean 4.33.0 kernel; theorems depend at most on `propext`, `Classical.choice`, `Quot.sound`.
* The transcription of the Rust code into `Verif/Model` (by reading; the code is not executed).  Every definition
  cites the lines it models.
* Rust semantics as modelled:
  * release build: integer arithmetic wraps (film areas, pixel offsets and sample indices are wrapped explicitly), `debug_assert!` is not evaluated;
  * float to integer casts saturate and send NaN to 0 (the rule since Rust 1.45);
  * IEEE-754 arithmetic with round to nearest even, no fused operations, no extended precision;
  * `f32::min`/`max` return the other operand when one is NaN;
  * `sort_by` is a stable sort when the comparison is a total preorder (the model uses insertion sort).  With NaN coordinates the
    comparison is not one and Rust leaves the order unspecified (recent versions may panic): theorems about k-d trees that allow
    NaN in the boxes (termination, panics of queries) speak of the tree that insertion sort gives;
  * `Mutex`, `Arc` and `thread::join` semantics, with poisoning after a panic.
* Parameters, so that theorems hold for all of them: the libm functions on floats (`sin`, `exp`, `pow`, `ln`, `acos`,
  `atan2`, ...), the `rand` generator, user-supplied shapes, materials, textures, filters, cameras and samplers.
  Where `sqrt` matters the hypothesis `ExactSqrt` (or the instance over ℝ) says so.
  `Widen` is the pair of casts between `f32` and `f64` in the sphere code; both round to nearest even in the model.

### What is modelled

| source | model | remarks |
|--------|-------|---------|
| axis.rs, vector.rs, vector_macro.rs | Model/Vector | operators used by the code; points, vectors and normals share one type |
| bbox.rs | Model/BBox2, BBox3 | all |
| bxdf_*.rs | Model/BxDFs | all five components |
| camera.rs | Model/Camera | all |
| common.rs | Model/Common, NextFloat | all; `same_addr` compares the address fields of the model |
| container_simple.rs | Model/Shape | all |
| container_kdtree.rs | Model/KdTree | all: build, sort, split, both traversals on the node array |
| film.rs | Model/Film, Output, Writer | all; a file is a list of bytes |
| filter.rs | Model/Filter | all |
| fresnel.rs | Model/Fresnel | all |
| integrator.rs | Model/Integrator, RenderTile, Render | `li` and `estimate_direct` as programs over an interface, tiles, threads as a transition system |
| interaction.rs, ray.rs | Model/Interaction, Ray | all |
| light.rs | Model/Light | all; `pre_process` is applied when the scene is built |
| material_*.rs, texture.rs | Model/Material, Texture | all |
| matrix.rs, transform.rs | Model/Matrix, Transform | all but `Debug` |
| microfacet.rs, reflection.rs | Model/Reflection, BxDFs, Sampling | all |
| sampler_*.rs, sampling.rs | Model/Halton, Sampler, Sampling, Primes | all; `RandomSampler` over an abstract generator |
| scene.rs | Model/Scene | all |
| shape_*.rs | Model/Sphere, Triangle | all |
| spectrum.rs | Model/Spectrum | all |

### What is not modelled

* Memory allocation, stack depth, timing, the text of `eprintln!` messages, `Debug` formatting.
* I/O errors other than those of opening, writing and dropping the output file (Model/Writer; `BufWriter` is taken as documented by the
  standard library).  Model/Render takes the writing as one step; C93 shows that this is what happens when no call fails.
* `api.rs` and `lib.rs` (re-exports only).
