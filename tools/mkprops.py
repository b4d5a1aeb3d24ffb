#!/usr/bin/env python3
"""Writes ../properties.jsonl.  One P(...) call per property."""
import json, os
ROWS = []
def P(title, statement, quantifier, why, anchors):
    ROWS.append(dict(id="C%02d" % (len(ROWS)+1), title=title, statement=statement,
                     quantifier=quantifier, why_tests_cant=why, anchors=anchors))

# ---------------------------------------------------------------- film / image
P("Pixel box iteration is exact",
  "Iterating an integer box [min, max) yields every integer point of the half-open box exactly once, in row-major order, yields nothing outside it, and after the last point answers None forever.",
  "all integer boxes (including empty and negative-coordinate ones) whose corners fit in i32",
  "the repo's test checks four literal boxes; the claim ranges over all boxes and over calls past the end",
  ["src/bbox.rs: BBox2i::iter, BBox2iIter::next"])
P("Film tiles partition the sample region",
  "The tiles handed out by Film::iter are non-empty, at most 16 by 16, pairwise disjoint, inside the sample region, and together cover every pixel of it.",
  "all sample regions whose size fits in i32 with room for one more tile (beyond that the number of tiles wraps around)",
  "a gap or overlap of one row for some resolution or filter radius would be missed by sampled sizes",
  ["src/film.rs: Film::iter, FilmTileIter::next", "src/film.rs: Film::sample_bbox"])
P("No contribution is lost or misplaced at tile borders",
  "For a camera sample taken in any pixel of a tile's region, accumulating it in the film tile touches exactly the image pixels whose centre is within the filter radius of the sample in both axes, with the weight of the filter table cell for that offset; clipping to the tile never drops an image pixel.",
  "all resolutions, filter radii, tiles of the film, sample positions inside the tile's pixels, image pixels",
  "border arithmetic (half-pixel shifts, floor/ceil) has to be right for every radius and position, not for sampled ones",
  ["src/film.rs: Film::get_film_tile, FilmTile::add_sample"])
P("Film accumulation never indexes out of bounds",
  "Adding a sample to a film tile and merging the tile into the film never indexes outside the tile's or the film's pixel buffer and never indexes outside the filter table, for any sample position at all (also NaN and infinite ones), and distinct pixels use distinct slots.",
  "all films of fewer than 2^31 pixels, all tiles obtained from the film's own iterator, all sample positions representable in the float type, all pixels",
  "a panic for one odd resolution/radius pair or float value kills a render thread",
  ["src/film.rs: Film::get_film_tile, FilmTile::add_sample, Film::merge_film_tile, pixel_offset"])
P("The rendered film is the filtered sum of all samples",
  "After rendering, each image pixel holds the sum over all samples taken of filter weight times radiance, and the sum of the weights; the result does not depend on the tile order or on which tile took a sample. In single precision, with a Gaussian filter and sizes as they occur in practice, the four numbers of each pixel are the exact sums over all valid samples whose footprint contains it up to a relative error of 1/1300.",
  "all tile orders, all sets of samples, all pixels (exact arithmetic); in single precision all radiance computations, thread counts and schedules, images up to 4096 x 4096, radii up to 7 and up to 12500 samples within the radius",
  "order independence quantifies over all permutations of tiles",
  ["src/film.rs: Film::merge_film_tile", "src/integrator.rs: Integrator::render"])
P("Every schedule renders and merges every tile exactly once",
  "For every number of worker threads >= 1 and every interleaving, when Integrator::render writes the image each tile of the film has been fetched, rendered and merged exactly once, no merge is in progress, and the film equals the sequential result.",
  "all thread counts, all interleavings of lock acquisitions, renders and pixel-by-pixel merges",
  "schedules cannot be enumerated by tests",
  ["src/integrator.rs: Integrator::render, IntegratorLocal::render", "src/film.rs: Film::merge_film_tile"])
P("Rendering never deadlocks and always finishes",
  "From every reachable state of a render some thread can take a step until the image is written or the render has failed, and every schedule reaches that point after a bounded number of steps.",
  "all reachable states of all schedules and thread counts",
  "liveness over all schedules",
  ["src/integrator.rs: Integrator::render"])
P("A failed tile never produces an image",
  "If any worker thread panics while rendering a tile, Integrator::render does not write the output file; the file is written only when all tiles have been merged.",
  "all schedules and all points at which a worker may panic",
  "crash points times schedules",
  ["src/integrator.rs: Integrator::render"])
P("The image file is well-formed for every accumulator content",
  "write_image_ppm writes the header P3, width, height, 255 followed by exactly width*height lines of three decimal integers in 0..=255, whatever float values (NaN, infinities, negative, zero weight) the pixels hold.",
  "all resolutions and all float contents of the pixel buffer",
  "includes NaN/infinity cases and all sizes",
  ["src/film.rs: Film::write_image_ppm, gamma_correct", "src/common.rs: clamp"])
P("An 8-bit channel is the rounded gamma-corrected colour",
  "Each written channel is the integer nearest to 255 times the gamma-corrected pixel colour (colour sum divided by weight sum), clamped to 0..=255; in particular a black pixel is written as 0.",
  "all pixel contents with positive weight",
  "needs the exact rounding behaviour for every value; the code's extra +0.5 is visible only at the right values",
  ["src/film.rs: Film::write_image_ppm"])
P("Brighter pixels never print darker",
  "If two pixels have the same positive weight and the first has a colour channel at most that of the second, the written channel value of the first is at most that of the second.",
  "all pairs of pixel contents, in exact arithmetic and in IEEE single precision with any monotone power function",
  "monotonicity over all pairs, including across the gamma curve's branch point",
  ["src/film.rs: write_image_ppm, gamma_correct"])
P("The output file contains exactly the image",
  "After a successful render, output.ppm contains exactly the bytes of the new image, whatever the file contained before.",
  "all previous file contents and all images",
  "ranges over the previous contents of the file system",
  ["src/integrator.rs: Integrator::render (OpenOptions)"])
P("Invalid radiance never poisons a pixel",
  "Only radiance values whose three channels are finite and non-negative reach the film, and no sequence of add/merge operations with such samples and non-negative finite filter weights ever makes a pixel's accumulators NaN or negative.",
  "all sequences of additions and merges, in floating-point arithmetic with any monotone rounding including overflow to infinity",
  "needs an invariant over arbitrary operation sequences in IEEE arithmetic",
  ["src/integrator.rs: IntegratorLocal::render", "src/film.rs: Pixel::add_sample, Pixel::merge"])
P("The Gaussian reconstruction filter is a proper filter",
  "For alpha >= 0 the Gaussian filter is non-negative everywhere, symmetric in both axes, zero outside the square of its radius, and non-increasing in the distance along each axis. With single precision rounding it stays a number between 0 and 1, exactly symmetric and non-increasing, is at most 2^-15 outside the radius, and for 1/4 <= alpha * radius^2 <= 8 none of the film's 256 tabulated weights is zero.",
  "all radii, alphas and points (in single precision: all up to 2^20, and all exponential functions that are accurate and monotone)",
  "claim over all reals",
  ["src/filter.rs: GaussianFilter"])

# ---------------------------------------------------------------- samplers
P("Every low-discrepancy sample coordinate lies in [0, 1)",
  "Every coordinate returned by HaltonSampler lies in [0, 1 - 2^-23], for every sample index, dimension below 1024 and pixel, even when the 32-bit digit arithmetic wraps around.",
  "all u32 indices and all table bases, wrapping 32-bit arithmetic, correctly rounded division",
  "2^32 indices times 1024 bases; wrap-around cases are rare",
  ["src/sampler_halton.rs: radical_inverse, radical_inverse_prime"])
P("Halton coordinates are the radical inverses",
  "As long as base^digits fits in 32 bits, the coordinate computed for index a in base b is the mirror image of a's base-b digits around the radix point (capped below 1). In single precision it differs from it by at most 2^-22 of it.",
  "all bases >= 2 and all indices without overflow (exact arithmetic and single precision)",
  "digit-recursive claim over all indices",
  ["src/sampler_halton.rs: radical_inverse"])
P("Digit reversal is invertible",
  "Reversing n base-b digits twice gives back the original number below b^n, so the pixel-to-index mapping loses no information.",
  "all bases >= 2, digit counts and numbers below base^n",
  "induction over digits",
  ["src/sampler_halton.rs: inverse_radical_inverse"])
P("Extended Euclid satisfies Bezout without overflow",
  "extended_gcd(a, b) returns (x, y) with x*a + y*b = gcd(a, b) for all a, b, and all intermediate values fit in i64 for 32-bit inputs.",
  "all pairs of u32",
  "2^64 inputs",
  ["src/sampler_halton.rs: extended_gcd"])
P("The modular inverse is an inverse",
  "multiplicative_inverse(a, n) times a is congruent to 1 modulo n for coprime a and n.",
  "all coprime pairs",
  "fails only when the Bezout coefficient is negative",
  ["src/sampler_halton.rs: multiplicative_inverse"])
P("A pixel's sample indices are the Halton points of that pixel",
  "For every pixel and sample number, the global Halton index chosen by the sampler is one whose base-2 and base-3 radical inverses fall in that pixel of the (at most 128-wide) sampling tile, so that samples of neighbouring pixels jointly form one Halton pattern.",
  "all pixels, sample numbers and sampling-region sizes",
  "number-theoretic claim over all pixels and sizes",
  ["src/sampler_halton.rs: get_index_for_sample, HaltonSampler::new"])
P("Different pixels never reuse the same sample index",
  "Two different pixels of the sampling region that are less than 128 apart on each axis never get the same global sample index, for any sample numbers.",
  "all pairs of pixels, all sample numbers, all sampling regions",
  "pairs of pixels times sample numbers times regions",
  ["src/sampler_halton.rs: get_index_for_sample"])
P("Exactly the requested number of samples is taken per pixel",
  "The per-pixel loop of the renderer (start_pixel, then samples until start_next_sample answers false) takes exactly max(1, samples_per_pixel) samples, for both samplers.",
  "all samples_per_pixel values and all pixels",
  "loop count over all u32 settings",
  ["src/sampler_halton.rs: start_pixel, start_next_sample", "src/sampler_random.rs", "src/integrator.rs: IntegratorLocal::render"])
P("A pixel's Halton samples do not depend on history",
  "After start_pixel(p) the whole stream of values delivered by a HaltonSampler depends only on its construction parameters and p, not on any calls made before, so a tile's content does not depend on the thread that renders it.",
  "all call histories and pixels",
  "history independence quantifies over all call sequences (the sampler caches a per-pixel offset)",
  ["src/sampler_halton.rs: get_index_for_sample, start_pixel"])
P("Tracing one camera sample never exhausts the prime table",
  "Rendering one sample consumes at most 519 sample dimensions whatever the scene, so the Halton sampler (1024 bases) never panics for running out of dimensions; the 1024 bases are exactly the first 1024 primes.",
  "all scenes, rays, materials, lights and sample values",
  "ranges over all possible paths through all scenes",
  ["src/integrator.rs: li, estimate_direct, uniform_sample_one_light", "src/sampler_halton.rs: radical_inverse_prime"])
P("A camera sample lies in its pixel",
  "The film position of a camera sample for pixel p lies in [p, p+1) on both axes.",
  "all pixels and sample values in [0, 1)",
  "float addition may round up to the next pixel for particular values",
  ["src/sampler.rs: get_camera_sample"])
P("Worker threads draw different random numbers",
  "With RandomSampler and more than one worker thread, different threads do not draw the same random sequence.",
  "all seeds and thread counts",
  "concerns all generator states",
  ["src/sampler_random.rs: RandomSampler", "src/integrator.rs: Integrator::render (sampler.clone())"])

# ---------------------------------------------------------------- containers
P("Brute-force container returns the closest hit",
  "Simple::intersect returns a hit iff some shape is hit within the ray's range (given the container box test), its parameter is the minimum over all shapes, and the reported shape is one that attains it.",
  "all lists of lawful shapes and all rays",
  "arbitrary shape lists and orders",
  ["src/container_simple.rs", "src/shape.rs: intersect"])
P("k-d tree construction loses no shape",
  "For every scene, every shape given to KdTree::new is stored in a leaf of the tree, every stored shape is one of the given ones, and at every split a shape that is not stored on one side lies entirely on the other side of the split plane.",
  "all scenes, all max_depth values, all cost outcomes",
  "build decisions depend on float cost comparisons over arbitrary scenes",
  ["src/container_kdtree.rs: KdTree::new, build"])
P("The k-d tree finds the same closest hit as brute force",
  "KdTree::intersect returns a hit iff the ray hits some shape within its range and then reports the same smallest ray parameter as testing every shape.",
  "all scenes of lawful shapes and all rays",
  "arbitrary scenes, arbitrary rays including axis-parallel ones and ones lying in a split plane",
  ["src/container_kdtree.rs: intersect, build"])
P("Occlusion queries agree with hit queries",
  "For both containers, intersect_p(ray) is true exactly when intersect(ray) returns a hit.",
  "all scenes of shapes whose own two queries agree, and all rays",
  "arbitrary scenes and rays",
  ["src/container_kdtree.rs: intersect_p, intersect", "src/container_simple.rs"])
P("k-d tree traversal is memory safe and terminates",
  "Traversal of a built tree never indexes outside the node array, never reaches the panicking match arm, and terminates for every ray (NaN and infinite components included).",
  "all built trees and all rays over all floats",
  "index arithmetic over all tree shapes",
  ["src/container_kdtree.rs: build, intersect, intersect_p"])
P("k-d tree depth respects max_depth",
  "The tree never has more than max_depth splits on a root-to-leaf path and a leaf above the depth limit holding more than 8 shapes is only created when no plane through a face of a shape's box strictly inside the node has a finite cost, or it has fewer than 16 shapes and the cheapest plane costs more than 4 times as much as testing them all, or it is the third node on its path where splitting costs more; every split is at a plane of least cost on the chosen axis, which is the longest axis that has such a plane; the cost is that of the surface area heuristic.",
  "all scenes and max_depth values",
  "recursion over arbitrary scenes",
  ["src/container_kdtree.rs: build"])
P("Bounding boxes enclose their shapes",
  "The box of a container and the union of boxes contain the box of every shape, in floating-point arithmetic (no rounding is involved); box construction orders the corners.",
  "all lists of non-NaN boxes",
  "arbitrary lists",
  ["src/bbox.rs: BBox3f::new, union, union_point, bbox_of_shapes"])
P("The ray/box test has no false negatives",
  "If some point of the ray with parameter in [0, t_max] lies in the box, BBox3f::intersect returns Some interval and that parameter is in the interval.",
  "all boxes and rays, including rays with zero direction components and infinite t_max",
  "infinitely many rays; zero components produce infinities and NaN",
  ["src/bbox.rs: BBox3f::intersect"])
P("The ray/box test has no false positives beyond its tolerance",
  "If BBox3f::intersect answers Some((t0, t1)) then the ray enters the box slabs, enlarged only by the far-side tolerance factor, within [0, t_max]: t0 <= t1 <= t_max, 0 <= t0, and every parameter in the interval is within every slab's (widened) range.",
  "all boxes and rays with non-zero direction components",
  "infinitely many rays",
  ["src/bbox.rs: BBox3f::intersect"])

# ---------------------------------------------------------------- shapes
P("A reported sphere hit is a real hit",
  "If Sphere::intersect reports parameter t then 0 < t < t_max and the ray's point at t is on the sphere; the reported point is on the sphere with outward unit normal.",
  "all spheres with positive radius and all rays with non-zero direction (exact arithmetic)",
  "infinitely many rays",
  ["src/shape_sphere.rs: has_intersection, compute_interaction", "src/common.rs: quadratic"])
P("Sphere hits are complete and closest",
  "If the ray meets the sphere at any parameter in (0, t_max) then Sphere::intersect reports a hit, and it is the smallest such parameter.",
  "all spheres and rays (exact arithmetic)",
  "infinitely many rays",
  ["src/shape_sphere.rs: has_intersection"])
P("A reported triangle hit is a real hit",
  "If Triangle::intersect reports parameter t then 0 < t <= t_max, the ray's point at t equals the reported point, and it is a convex combination of the three vertices.",
  "all triangles and rays (exact arithmetic)",
  "infinitely many rays",
  ["src/shape_triangle.rs: intersect"])
P("Triangle hits are complete",
  "If a ray not parallel to the triangle's plane meets the triangle at a parameter above the documented error threshold and at most t_max, Triangle::intersect reports a hit with exactly that parameter.",
  "all triangles and rays (exact arithmetic)",
  "infinitely many rays",
  ["src/shape_triangle.rs: intersect"])
P("Shape occlusion test equals shape hit test",
  "For triangles, spheres and area lights intersect_p(ray) is true exactly when intersect(ray) is Some, in IEEE arithmetic with any math library.",
  "all shapes and all rays over all floats",
  "the triangle code is duplicated; equality must hold for all float inputs",
  ["src/shape_triangle.rs: intersect_p, intersect", "src/shape_sphere.rs", "src/light.rs"])
P("Shapes obey the shrinking-range contract",
  "For spheres and triangles, shrinking t_max either keeps the reported hit or removes it: a reported t never exceeds t_max, lowering t_max to a value above t does not change the answer, lowering it below t gives None, and None stays None.",
  "all shapes, rays and pairs of t_max values, in floating-point arithmetic",
  "containers rely on it for arbitrary sequences of tests",
  ["src/shape.rs: intersect", "src/shape_sphere.rs", "src/shape_triangle.rs"])
P("Points sampled on a triangle lie on it and are uniform by area",
  "Triangle::sample returns, for sample values in [0,1], a point that is a convex combination of the vertices, and its normal equals the geometric normal reported by intersect for a triangle without vertex normals, honouring reverse_orientation; for sample values uniform in [0,1) the point is uniform by area, and the area reported is that of the surface. In single precision the point drawn is within 17 M / 2^24 + 2^-147 of that point, coordinate by coordinate, where M bounds the coordinates of the vertices.",
  "all triangles and samples (exact arithmetic; single precision for coordinates up to 2^100)",
  "all sample values",
  ["src/shape_triangle.rs: sample, intersect"])
P("Triangle meshes contain exactly the indexed triangles",
  "new_triangle_mesh returns one triangle per index triple, in order, with the indexed vertices and, when given at least as many normal index triples, the indexed normals; it panics exactly when an index is out of range.",
  "all vertex, index and normal arrays",
  "arbitrary arrays",
  ["src/shape_triangle.rs: new_triangle_mesh"])
P("Spawned rays leave the surface",
  "The origin of a ray spawned from a surface point is displaced from the point along the normal to the side of the ray direction; in floating-point arithmetic every coordinate with a non-zero offset moves strictly in the offset's direction.",
  "all points, normals, error bounds and directions; any monotone rounding",
  "must hold for all floats; rounding may swallow the offset",
  ["src/interaction.rs: offset_ray_origin, spawn_ray", "src/common.rs: next_float_up, next_float_down"])
P("Shadow rays stop short of their target",
  "The ray from one interaction to another starts at the offset origin, passes through the offset target at parameter 1 and has t_max < 1, so the target surface itself is not reported as an occluder while everything up to 99.99% of the way is.",
  "all pairs of interactions (exact arithmetic)",
  "all pairs of points",
  ["src/interaction.rs: spawn_ray_to", "src/light.rs: VisibilityTester::unoccluded"])

# ---------------------------------------------------------------- transforms, camera
P("Matrix inversion is correct",
  "For every 4x4 matrix whose determinant (as computed) is non-zero, the product of the matrix with Matrix::inverse is the identity on both sides. Matrix::transpose exchanges rows and columns, and the product is the product of matrices.",
  "all invertible real 4x4 matrices",
  "16-parameter polynomial identity",
  ["src/matrix.rs: inverse, transpose, mul, div"])
P("Every transform carries its true inverse",
  "For every transform built by translate, scale (non-zero), rotate_x/y/z, look_at (non-degenerate), perspective (0 < near < far, tan(fov/2) non-zero), from an invertible matrix, by composition or by inverse(), the stored inverse matrix is the two-sided inverse of the stored matrix.",
  "all constructor arguments and all finite compositions",
  "closure under arbitrary composition",
  ["src/transform.rs"])
P("Transform composition composes",
  "Applying t1 * t2 to a point is applying t2 and then t1 as long as no homogeneous weight vanishes; for vectors and normals the same holds for affine transforms (everything but perspective).",
  "all pairs of transforms and all arguments",
  "all arguments, perspective divides included",
  ["src/transform.rs: Mul, Transformable"])
P("inverse_apply undoes apply",
  "For every lawful transform inverse_apply(apply(p)) = p for points whose homogeneous weight is non-zero, and for every lawful affine transform inverse_apply(apply(x)) = x for vectors, normals and rays.",
  "all lawful transforms and arguments",
  "all arguments, perspective divides included",
  ["src/transform.rs: apply, inverse_apply"])
P("Normals stay perpendicular",
  "If a normal is perpendicular to a vector, the transformed normal is perpendicular to the transformed vector, for every lawful affine transform (non-uniform scale and shear included).",
  "all lawful transforms, normals and tangent vectors",
  "fails for the naive transformation only for non-rigid matrices",
  ["src/transform.rs: Transformable for Normal3f"])
P("A transformed box contains the transformed points",
  "For every lawful affine transform and box, the transformed box contains the image of every point of the box.",
  "all affine transforms, boxes and points",
  "holds for translations and scales but not for rotations",
  ["src/transform.rs: Transformable for BBox3f"])
P("Camera rays start at the eye with unit direction and hit the film point",
  "PerspectiveCamera::generate_ray gives a ray starting at the camera position, in the direction of the film sample mapped back through the screen window and the perspective transform; with a rigid camera placement the direction has unit length; the film's corners map to the screen window's corners. In single precision every coordinate of the direction is within 2^-19 of the rotation applied to the exact unit vector towards the point of the film.",
  "all film positions, resolutions, screen windows and camera placements",
  "all parameters",
  ["src/camera.rs", "src/transform.rs"])

# ---------------------------------------------------------------- scattering
P("Mirror reflection law",
  "reflect(w, n) for unit n keeps the length of w, makes the same angle with n, lies in the plane of w and n, and reflecting twice gives w back. In single precision, for vectors with coordinates in [-1, 1], each coordinate of the result is a number within 2^-18 of the exact one.",
  "all vectors and unit normals", "all vectors", ["src/reflection.rs: reflect"])
P("Refraction obeys Snell's law",
  "For unit wi and n with wi.n >= 0, refract returns None exactly in total internal reflection; otherwise a unit vector on the other side of the surface, in the plane of wi and n, whose sine is eta times the incident sine. In single precision, for ratios up to 4, the decision is right unless the exact squared sine is within 2^-13 of 1, and each coordinate of the direction is within 2^-13 over the refracted cosine of the exact one; smooth glass lets light through in that direction, strictly to the other side.",
  "all unit vectors and all positive eta", "all directions and ratios", ["src/reflection.rs: refract"])
P("Fresnel reflectance is a physical fraction",
  "The dielectric reflectance lies in [0, 1] for every cosine and positive indices, is 1 in total internal reflection, and is the same for a path and its reversal; the conductor reflectance lies in [0, 1] and equals the mean of the squared moduli of the two complex Fresnel amplitudes; without absorption it is the dielectric one. In single precision the dielectric reflectance is a number in [0, 1], never NaN, for every cosine that is not NaN and all indices between 2^-30 and 2^30, and it and the rest of the light add up to one within 2^-24.",
  "all cosines and positive indices / absorption coefficients",
  "all reals, both branches",
  ["src/fresnel.rs: fr_dielectric, fr_conductor"])
P("Smooth glass conserves energy",
  "For smooth glass the fraction reflected plus the fraction transmitted (before the radiance scaling by the squared index ratio) is exactly one for every incident direction, with kr = kt = 1.",
  "all directions and positive indices",
  "needs Fresnel reciprocity for every angle, as the code evaluates the transmitted side at the refracted angle",
  ["src/bxdf_specular_reflection.rs", "src/bxdf_specular_transmission.rs", "src/fresnel.rs"])
P("Diffuse sampling is exact and stays in the hemisphere",
  "LambertianReflectionBRDF::sample_f returns a unit direction in wo's hemisphere, with pdf cos/pi equal to pdf(wo, wi), and value*cos/pdf equal to the albedo whenever pdf > 0. In single precision the squared length is one within 2^-20, the direction is never on the other side, the density is a number >= 0 equal to cos/pi up to rounding, and value*cos/pdf is the albedo within a relative error of 2^-22, away from underflow.",
  "all outgoing directions and samples (exact arithmetic and single precision)",
  "all samples", ["src/bxdf_lambertian_reflection.rs", "src/sampling.rs"])
P("Reflection models are reciprocal and non-negative",
  "The Lambertian and microfacet reflection values are symmetric in wo and wi and non-negative for non-negative reflectance.",
  "all pairs of directions, roughnesses and Fresnel models with non-negative values",
  "all direction pairs", ["src/bxdf_lambertian_reflection.rs", "src/bxdf_microfacet_reflection.rs", "src/microfacet.rs"])
P("The microfacet pdf is the density of the sampled normals",
  "MicrofacetDistribution::pdf(wo, wh) is the solid-angle density with which sample_wh produces wh (isotropic case).",
  "all roughnesses and samples",
  "a density claim; wrong factors show up only statistically",
  ["src/microfacet.rs: sample_wh, pdf, d"])
P("BSDF sampling, value and pdf are consistent",
  "When BSDF::sample_f picks a non-specular component, the returned pdf equals BSDF::pdf for the returned direction, and the returned value equals BSDF::f for it when there are several components or when the kind (reflection, transmission) of a single component matches the sides of the geometric normal on which the two directions lie, provided the components are self-consistent and the shading frame is orthonormal; the components of all the materials are self-consistent, and the frame is orthonormal when the tangent is perpendicular to the unit shading normal; a specular pick returns the component's own value with the pdf divided by the number of components.",
  "all lists of components, directions and samples",
  "arbitrary component lists", ["src/reflection.rs: BSDF::sample_f, BSDF::pdf, BSDF::f"])
P("Component and light selection never goes out of range, is even and leaves none out",
  "For every f32 sample in [0,1) and every number n of components (or lights) up to 2^23, the selected index is below n and the remapped sample stays in [0,1). Index k is selected for the samples from k/n up to (k+1)/n, up to one step of 2^-24 at each end, so each of the n is selected for some sample and all have the same share. It is the selected light that is asked, its answer is multiplied by n, and it is the selected component that draws the direction, from the part of the sample that is left (n times the sample, less the index).",
  "all f32 values in [0,1) and all n",
  "float rounding of sample*n could reach n; only the largest samples matter",
  ["src/reflection.rs: BSDF::sample_f", "src/integrator.rs: uniform_sample_one_light"])
P("MIS weights are a partition of unity",
  "power_heuristic(1,a,1,b) + power_heuristic(1,b,1,a) = 1 and both are in [0,1] for all non-negative a, b not both zero. With n and m samples of the two strategies the weights power_heuristic(n,a,m,b) and power_heuristic(m,b,n,a) also sum to 1, and are to each other as (n a)^2 to (m b)^2. In single precision the weights (of one sample each) are in [0,1] and their sum is 1 up to 2^-21, as long as both pdfs are at most 2^62 and one is at least 2^-60; with a much larger pdf, or with two much smaller ones, there is no weight.",
  "all pairs of pdfs", "all reals, and all pairs of floats with their rounding errors", ["src/sampling.rs: power_heuristic"])

# ---------------------------------------------------------------- lights, scene, integrator
P("Area lights emit from one side only",
  "An area light's emitted radiance towards w is its colour exactly when w is on the normal's side and black otherwise; sample_li reports the same radiance as a camera ray hitting the sampled point would see.",
  "all directions, points and colours", "all directions", ["src/light.rs: AreaLight"])
P("Distant-light shadow rays reach outside the scene",
  "For every point inside the scene box, the end point used to test the visibility of a distant light is outside the interior of the scene's bounding sphere, so no occluder inside the scene is beyond it.",
  "all scene boxes, points in them and unit light directions", "all points", ["src/light.rs: DistantLight", "src/bbox.rs: bounding_sphere"])
P("Scene assembly keeps every light and shape",
  "Builder::construct yields as lights all added lights in order followed by the area lights in order, as shapes all added shapes followed by the same area-light objects, passes every light a box that contains every shape, and panics exactly when there is nothing to put in the container.",
  "all sequences of add_light, add_shape, add_area_light calls",
  "arbitrary build histories", ["src/scene.rs: Builder"])
P("Path tracing terminates",
  "Tracing a path performs at most 66 closest-hit queries along the path and at most 65 scattering events, plus at most 65 shadow rays and 65 searches for the sampled light, whatever the scene.",
  "all scenes, samplers and rays", "all scenes and random values", ["src/integrator.rs: li"])
P("Radiance estimates are non-negative",
  "If lights emit non-negative radiance and scattering functions, pdfs and reflectances are non-negative, the radiance computed for any camera ray is non-negative in every channel. In single precision, with matt, mirror, smooth plastic and smooth glass surfaces, every channel is NaN or has no minus sign; a metal can reflect a tiny negative value.",
  "all such scenes, samplers and rays (exact arithmetic); all scenes of spheres and triangles with smooth surfaces, in either container (single precision)", "all scenes", ["src/integrator.rs: li, estimate_direct"])
P("Russian roulette is unbiased",
  "Averaged over the roulette variable uniform in [0,1), the continued path's weight equals the weight before the roulette. In single precision, averaged over all values the random generator can deliver, it does so in every channel up to a relative error of 2^-22 and an absolute one of 2^-18, and no weight becomes infinite, NaN or negative.",
  "all path weights with positive luminance", "an expectation", ["src/integrator.rs: li"])
P("Light pdf is a solid-angle density",
  "The pdf an area light reports for a direction is its density with respect to solid angle at the shaded point, as needed to be combined with the scattering pdf.",
  "all reference points and triangle lights", "wrong measures only show as wrong brightness", ["src/shape.rs: pdf", "src/light.rs: AreaLight::sample_li"])

# ---------------------------------------------------------------- float utilities, textures
P("next_float_up/down are the adjacent floats",
  "For every finite f32, next_float_up returns the least float greater than it and next_float_down the greatest float less than it; they are mutually inverse away from zero and infinity, and fix +inf / -inf respectively.",
  "all 2^32 bit patterns except NaN", "2^32 bit patterns, signed zeros, subnormals, infinities", ["src/common.rs: next_float_up, next_float_down"])
P("clamp clamps and lerp interpolates",
  "clamp(x, lo, hi) with lo <= hi returns a value in [lo, hi], equal to x when x is in range, and the nearest bound otherwise; NaN is passed through. lerp(t, a, b) is a at t = 0, b at t = 1, and runs from one to the other without turning back; in single precision the two ends are met exactly and in between the result is right up to rounding; for colours the same holds per channel.",
  "clamp: all values of any partially ordered float type; lerp: all reals, and all floats of moderate size", "all floats including NaN", ["src/common.rs: clamp, lerp", "src/spectrum.rs: Spectrum::lerp"])
P("The quadratic solver returns the two real roots in order",
  "quadratic(a,b,c) with a non-zero returns None exactly when there is no real root; otherwise the ordered pair of roots (with multiplicity), except in the degenerate case b = c = 0.",
  "all coefficients (exact arithmetic)", "all reals, cancellation branch", ["src/common.rs: quadratic"])
P("Checkerboard textures alternate",
  "The 2D and 3D checkerboards return the first texture exactly when the sum of the integer cell coordinates is even, negative coordinates included, so moving one cell in any direction switches the texture.",
  "all mapped coordinates in range of i64", "negative coordinates and truncation", ["src/texture.rs"])
P("Surface frames are orthonormal",
  "For a sphere hit away from the poles, and for a triangle hit, the tangent used for shading is perpendicular to the shading normal, so the shading frame is orthonormal and world-to-local and local-to-world are mutually inverse.",
  "all hits on spheres and triangles (exact arithmetic)", "all hits", ["src/shape_sphere.rs: compute_partial_derivative", "src/shape_triangle.rs: intersect", "src/reflection.rs: BSDF::new"])
P("Shadow rays to distant lights see every occluder",
  "The shadow ray traced to test the visibility of a distant light covers every point of the scene that lies from the shaded point in the direction of the light, so an occluder anywhere in the scene hides the light.",
  "all scenes, shaded points and light directions (exact arithmetic)", "an occluder may be anywhere up to the end of the scene diagonal", ["src/light.rs: DistantLight::sample_li, VisibilityTester::unoccluded", "src/interaction.rs: spawn_ray_to"])
P("Rendering library scenes does not panic",
  "Rendering a scene built of the library's spheres, triangles, materials, distant lights and area lights on triangles, in either container and with either sampler, never panics in any thread and can always be completed, unless a traced ray has a direction whose y coordinate, and only it, is NaN (this does happen: shadow rays to a distant light whose direction has y = 0, in a scene so large that its bounding radius overflows; it cannot happen in a scene of matt spheres and of matt triangles with coordinates up to 2^25 that are not slivers, with distant lights and area lights on the triangles, seen by a perspective camera); area lights on spheres make every camera sample that hits anything panic.",
  "all such scenes, cameras, films in range, sample values in [0, 1), numbers of threads and schedules", "ranges over all paths through all scenes and all schedules",
  ["src/integrator.rs: li, render", "src/vector.rs: max_abs_axis", "src/shape_sphere.rs: sample", "src/reflection.rs: BSDF::sample_f", "src/light.rs: sample_li"])
P("The values of one sample are the coordinates of one Halton point",
  "Whatever was drawn before, the values a HaltonSampler delivers for a pixel sample, asked for one or two at a time in any order, are the successive coordinates (in pairwise different prime bases) of a single Halton point, and the index of that point grows by the number of grid cells from one sample of the pixel to the next.",
  "all sampling regions, pixels, call histories, sample numbers and request patterns of at most 1024 values", "quantifies over all request patterns and histories; a skipped or repeated dimension only shows as correlated noise",
  ["src/sampler_halton.rs: get_1d, get_2d, start_pixel, start_next_sample, sample_dimension"])
P("The estimator is unbiased for the light transport recursion",
  "The mean of the radiance computed for a camera sample, over independent sample values uniform in [0, 1), is exactly what the recursive light transport equation with at most 65 scatterings assigns to the camera ray: at every point the emission (if it is to be counted there), plus the scattered light of every source of the scene, plus the light coming in along the direction the surface chooses, weighted by reflectance times cosine over density. Choosing one source at random, Russian roulette and the accumulated path weight do not change the mean.",
  "all scenes that answer every question, cameras and camera samples (exact arithmetic); instantiated to all scenes of library triangles, materials and lights in either container", "an expectation over all sequences of sample values; a bias shows only as a slightly wrong image",
  ["src/integrator.rs: li, uniform_sample_one_light, estimate_direct", "src/sampling.rs: power_heuristic"])
P("Boxes answer geometric questions correctly",
  "A point is reported inside a box exactly if every coordinate lies between the corners'; two boxes with ordered corners are reported to overlap exactly if they share a point (touching counts); the surface area is that of the six faces; the longest axis is a longest one and always exists; the bounding sphere contains the box and no smaller sphere does.",
  "all boxes and points (comparisons in floating-point arithmetic, measures in exact arithmetic)", "all relative positions of boxes, ties included", ["src/bbox.rs: point_inside, overlaps, surface_area, max_extent, bounding_sphere"])
P("Elementary transforms do what their names say",
  "translate moves points by the offset and leaves vectors and normals; scale multiplies coordinates (divides those of normals); rotate_x, rotate_y and rotate_z turn points, vectors and normals about the axis by the angle in degrees, counterclockwise seen against the axis; perspective divides by the depth times the tangent of half the field of view and sends the near and far planes to depth 0 and 1; look_at places the camera axes at the position: z along the viewing direction, x along up times viewing direction, y on the side of up.",
  "all parameters, points, vectors and normals (exact arithmetic)", "all reals", ["src/transform.rs: translate, scale, rotate_x, rotate_y, rotate_z, perspective, look_at, apply"])
P("Diffuse surfaces sample directions with density cosine over pi",
  "For sample values uniform in [0, 1) the concentric map gives points uniform on the unit disk and cosine_sample_hemisphere directions with density cos(theta)/pi over the hemisphere; so scattering at a diffuse surface hands on, on average, reflectance/pi times the integral over the hemisphere on the viewer's side of the incoming light times the cosine.",
  "all measurable functions of the point or direction, all reflectances, orientations and viewing directions (exact arithmetic)", "a distribution, not a value: a wrong sector of the map shows only as a tint", ["src/sampling.rs: concentric_sample_disk, cosine_sample_hemisphere", "src/bxdf_lambertian_reflection.rs: sample_f", "src/reflection.rs: BSDF::sample_f"])
P("Materials scatter what their model says",
  "Matte reflects colour/pi to its own side and nothing through. Rough metal, the glossy part of plastic and rough glass reflect colour times the Torrance-Sparrow model with the Trowbridge-Reitz distribution and Smith masking (metal with the reflectance of its complex index of refraction); rough glass transmits colour times the microfacet transmission model. Mirrors, smooth metal and smooth plastic send all light in the mirror direction times colour (times reflectance); smooth glass reflects in the mirror direction or refracts by Snell's law, carrying colour times the reflected share, or colour times the transmitted share times the squared index ratio, and transmits nothing under total internal reflection.",
  "all textures with non-negative values, roughnesses, surface points with a tangent frame and pairs of directions (exact arithmetic)", "a formula over all directions; a wrong factor only tints an image",
  ["src/material_lambertian_reflection.rs", "src/material_metal.rs", "src/material_plastic.rs", "src/material_glass.rs", "src/material_mirror.rs", "src/microfacet.rs: d, g, lambda", "src/bxdf_microfacet_reflection.rs: f", "src/bxdf_microfacet_transmission.rs: f", "src/bxdf_specular_reflection.rs", "src/bxdf_specular_transmission.rs"])
P("Dielectrics reflect the share that belongs to the side the light comes from",
  "The share of light a plastic or glass surface reflects is that of the boundary between air and the material for light arriving on the side of the observer: from the air never all of it, from inside all of it beyond the critical angle.",
  "all dielectric materials, surface points and pairs of directions on the same side (exact arithmetic)", "all directions on both sides; swapped indices still give a plausible highlight",
  ["src/material_plastic.rs: compute_scattering", "src/material_glass.rs: compute_scattering", "src/bxdf_microfacet_reflection.rs: f", "src/fresnel.rs"])
P("The error bound reported with a hit covers the rounding error of the hit point",
  "The point a shape reports for a ray is, in every coordinate, within the error bound reported with it of one and the same point of the exact shape, so that an offset by the bound leaves the surface.",
  "all triangles and all rays in single precision, however badly conditioned, unless coordinates overflow or the bound underflows; all spheres about the origin, given a correctly rounded square root", "rounding errors depend on the exact bits of every input", ["src/shape_triangle.rs: intersect", "src/shape_sphere.rs: compute_interaction", "src/common.rs: gamma"])
P("A mirror shows what is seen along the mirror direction, multiplied by its colour",
  "The mean radiance of a camera sample that meets a mirror is the mirror's colour times the mean radiance of a sample taken from there along the mirror direction; in particular a lamp seen in a mirror is as bright as the lamp times the colour of the mirror.",
  "all scenes, rays that meet a mirror, colours and path depths; mean over all sample values (exact arithmetic)", "a mean over a continuum of sample values; a factor in the brightness of reflected lamps looks plausible in a picture",
  ["src/integrator.rs: estimate_direct, li", "src/material_mirror.rs: compute_scattering"])
P("The tangents of a hit are the derivatives of the surface point by the texture coordinates",
  "The two tangent vectors reported with a hit are the rates at which the surface point moves when the first and the second reported texture coordinate change.",
  "all triangles, with and without vertex normals, all spheres, all rays that hit them away from the poles (exact arithmetic)", "a derivative at every point of a surface",
  ["src/shape_triangle.rs: intersect", "src/shape_sphere.rs: compute_partial_derivative, compute_interaction"])

P("The samples of a pixel are evenly spread over every dimension",
  "Cut some of the dimensions of the sample space into equal parts, a power of the dimension's prime many; then of as many consecutive samples of a pixel as there are boxes exactly one falls into each box.",
  "all sampling regions, pixels, sets of dimensions, powers, boxes and first samples; all histories of the sampler", "all sample numbers and combinations of dimensions; the values look random in any short run",
  ["src/sampler_halton.rs: new, start_pixel, start_next_sample, get_1d, get_2d, radical_inverse"])

P("A scene without colours gives an image without colours",
  "If two colour channels agree in every texture, light and optical constant of a scene, the two numbers agree in every line of the image file; in particular the image of a grey scene is grey.",
  "all scenes of library shapes, materials and lights in either container, all cameras, filters, image sizes, samplers, thread counts and schedules, single precision with its rounding", "all scenes, paths and schedules; a tint of one unit in the last place is invisible",
  ["src/spectrum.rs", "src/reflection.rs: BSDF", "src/fresnel.rs: fr_conductor", "src/integrator.rs: li, IntegratorLocal::render", "src/film.rs: add_sample, merge_film_tile, write_image_ppm"])

P("Materials and lights do not change what is where",
  "Two scenes of the same shapes in the same order, with other materials, colours and lights, can both be constructed or neither; every ray meets the same point of the same shape in both, and is blocked in both or in neither.",
  "all scenes of library shapes, both containers, all rays, any arithmetic", "all scenes, trees and rays", ["src/container_simple.rs", "src/container_kdtree.rs", "src/scene.rs: construct", "src/light.rs: AreaLight"])
P("Multiplying all lights multiplies the image",
  "If the colours of all lights of a scene are multiplied, channel by channel, by positive factors, the radiance of every camera sample and the colour of every pixel are multiplied by the same factors, and the weights stay.",
  "all scenes of distant lights, area lights and arbitrary shapes, both containers, all factors, cameras, filters, image sizes, thread counts and schedules (exact arithmetic)", "all scenes, paths and schedules", ["src/integrator.rs: estimate_direct, uniform_sample_one_light, li, IntegratorLocal::render", "src/light.rs", "src/film.rs: add_sample, merge_film_tile"])

P("Meshes have no gaps between their triangles",
  "If the triangles of a mesh, as seen from a ray, cover the ray, then the ray hits one of them, also where it meets exactly an edge or a corner that several triangles share.",
  "all triangles, meshes and rays (single precision)", "all positions of corners and all directions; rounding errors at shared edges depend on the exact bits of both", ["src/shape_triangle.rs: intersect, intersect_p"])

P("Whenever writing stops, the file starts with a piece of the image",
  "At every moment of the writing of output.ppm, so after a crash at any point, after any write error and at the end, the file is either as it was before or consists of the first bytes of the image followed by what the old file had after that offset.",
  "all films, old files, buffer sizes, answers of the operating system (short writes, interruptions, errors) and crash points", "all histories of partial writes, errors and crashes", ["src/integrator.rs: render (lines 74-81)", "src/film.rs: write_image_ppm"])
P("A write error is never silent",
  "If rendering returns normally, the complete image is in output.ppm; otherwise it panics. Writing ends for every behaviour of the operating system that does not interrupt it for ever.",
  "all films, old files and answers of the operating system", "all histories of partial writes and errors", ["src/integrator.rs: render (lines 74-81)", "src/film.rs: write_image_ppm"])

P("A triangle is reported at a distance between those of its corners",
  "A hit on a triangle is reported at a distance between the distances of its nearest and its farthest corner, up to a relative error of 2^-19 in single precision, however thin the triangle is and however obliquely the ray meets it; a triangle whose corners are all behind the origin, or all beyond the end of the ray, is not hit.",
  "all triangles and rays in single precision whose coordinates, as seen from the ray, are zero or between 2^-40 and 2^30 and whose distances are between 2^-20 and 2^60", "all triangles and rays, every rounding", ["src/shape_triangle.rs: intersect, intersect_p"])
P("What is in front hides what is behind",
  "If a ray goes through a triangle that is not a sliver, then among the shapes of a scene, in any order, the hit is on that triangle or on others at about its distance, never on a shape that is more than 3 percent farther away, and the ray is found to be blocked.",
  "all lists of shapes, orders and rays in single precision, within the ranges of C91 and C94", "all scenes, orders and rays, every rounding", ["src/container_simple.rs: intersect, intersect_p", "src/shape.rs: intersect", "src/shape_triangle.rs: intersect, intersect_p", "src/bbox.rs: intersect"])
P("A ray that clearly passes a triangle does not hit it",
  "If a ray is on the inner side of one edge of a triangle and on the outer side of another, by more than 2^-21 of the area of its bounding rectangle as seen from the ray, the triangle is not hit.",
  "all triangles and rays in single precision whose coordinates, as seen from the ray, are at most 2^30", "all triangles and rays, every rounding", ["src/shape_triangle.rs: intersect, intersect_p"])

P("The k-d tree tests every shape that the ray comes to",
  "In single precision, with every rounding error: the answer of the k-d tree is what results from testing some of the shapes in some order, and every shape whose box the line passes through within the range of the ray is tested, unless the hit is nearer than that box is entered. If the shadow test reports nothing, every such shape was tested and reported nothing. A triangle in front hides what is behind it in the tree as well.",
  "all scenes, depth limits, outcomes of the cost heuristic and rays in single precision of moderate size, except rays parallel to and exactly in a face of a box, and boxes that the line grazes at an edge", "all scenes and rays, every rounding, every shape of the tree", ["src/container_kdtree.rs: new, intersect, intersect_p", "src/bbox.rs: intersect"])

P("Rendering the same scene twice gives the same image",
  "Two renders of the same scene with the Halton sampler, with any numbers of threads and any schedules, leave the same output file, byte by byte, in single precision as the program computes it.",
  "all films, filters, radiance programs, sample counts, thread counts and schedules, in single precision", "it takes a rare interleaving of the threads to get another file; every rounding", ["src/integrator.rs: render", "src/film.rs: merge_film_tile, add_sample", "src/sampler_halton.rs"])

P("The example program renders its image",
  "The program examples/helloworld.rs builds its scene without a panic, in single precision and wherever its objects are allocated. In every schedule of its four threads no thread panics, the run comes to an end after a bounded number of steps, and at the end the output file starts with a well-formed image of 1600 x 1280 pixels (and is exactly that image, unless an older file was longer); if the file cannot be opened it is left as it was. The same holds for every scene of matt triangles and spheres of moderate size, with any number of threads.",
  "every schedule, every address, every content of the old file, every mathematical library with a square root right within a factor of two and a tangent between the angle and twice the angle",
  "A run of the example tries one schedule on one machine with one mathematical library, and needs 10^9 samples.",
  ["examples/helloworld.rs: main, create_light, create_sphere, create_floor", "src/integrator.rs: render", "src/scene.rs: Builder::construct"])

P("Rough glass lets light through only where a facet can bend it",
  "A glass material with positive roughness scatters light from one direction into a direction on the other side of the surface exactly if some facet of the surface has the two directions on its two sides and bends one into the other by Snell's law.",
  "every refractive index above 1, every roughness, colour, interaction with an orthogonal frame and every pair of unit directions",
  "the claim compares every pair of directions with every possible facet; tests look at sampled directions, which all come from one facet",
  ["src/bxdf_microfacet_transmission.rs: f", "src/material_glass.rs: GlassMaterial", "src/microfacet.rs: MicrofacetDistribution"])
P("The light of several lamps adds up",
  "If every lamp of a scene has the sum of two colours, then every camera sample, and every pixel of the finished image, is the sum of what the two scenes give; the sampler is used in the same way, and either all three renderings panic or none. So the image of a scene with any number of lamps is the sum of the images in which one lamp at a time is lit and the others are black. Exact arithmetic.",
  "all scenes of spheres, triangles, distant lights and area lights on triangles with the library's materials (images: triangles, no negative light), all colours, both containers, all cameras, samplers and sampler states, all numbers of threads and schedules",
  "the sum must hold for every scene, every choice of colours and every stream of sample values",
  ["src/integrator.rs: estimate_direct, uniform_sample_one_light, li, render", "src/light.rs: AreaLight, DistantLight", "src/film.rs: add_sample, merge_film_tile"])
P("The image is the filtered sum of all camera samples",
  "When a render with the Halton sampler has completed, no camera sample has panicked, every sample was taken inside its pixel, and each pixel of the image holds exactly: for every pixel of the sampled region (the image and the filter's reach around it) and each of its max(1, samples_per_pixel) samples, the light of the sample times the filter weight at its distance, if no channel of the light is negative and the distance is within the filter radius on both axes. Nothing else, nothing twice, and the i-th sample of a pixel is the one a fresh sampler gives after start_pixel and i times start_next_sample. Exact arithmetic.",
  "all radiance computations (in particular all scenes and cameras), films, filters, sample counts, numbers of threads and schedules",
  "the sum ranges over all pixels and samples and must come out for every schedule of the threads and every tile boundary",
  ["src/integrator.rs: render", "src/film.rs: add_sample, merge_film_tile, get_film_tile, FilmTileIter", "src/sampler.rs: get_camera_sample", "src/sampler_halton.rs: start_pixel, start_next_sample"])

P("Every pixel is covered and its colour lies among its samples",
  "With a filter that is nowhere negative, the colour of each pixel of a completed render, divided by its weight, lies in each channel between the least and the greatest light of the samples that count for it; if all samples bring the same light, every pixel shows it. With a filter that is positive inside its radius and reaches at least half a pixel, every pixel in which a usable sample was taken has a positive weight, so the division is never by zero. In single precision, with a Gaussian filter and sizes as they occur in practice, each number in the image file is at least 255 srgb(lo) - 0.51 and at most 255 srgb(hi) + 1.51 if the light of the samples is between lo and hi.",
  "all radiance computations, films, non-negative filters (for the weight: radius at least 1/2 and positive inside it; in particular Gaussian filters with alpha > 0), sample counts, numbers of threads and schedules; all scenes of triangles",
  "must hold for every pixel of every image and every placement of samples and tiles",
  ["src/film.rs: add_sample, write_image_ppm", "src/filter.rs: evaluate", "src/integrator.rs: render"])
P("With random numbers the image is right on average",
  "With the random sampler and one thread a render computes all its camera samples from one stream of numbers, one after the other.  If these numbers are independent and uniform in [0,1), then in a scene of triangles, distant and area lights with the Gaussian filter the mean colour of every pixel is max(1, spp) times the light that comes in along the camera rays, filtered over the pixels, and its mean weight is as many times the filtered weight: the image has no bias but that of the path length limit.",
  "all resolutions, filter widths, sample counts, generators, scenes of triangles and lights, cameras with unit directions, schedules of main and the worker, pixels and channels; exact arithmetic",
  "a claim about the mean over all sequences of random numbers and about every completed run",
  ["src/integrator.rs: Integrator::render, Integrator::li", "src/sampler_random.rs: RandomSampler", "src/film.rs: Film::merge_film_tile, FilmTile::add_sample", "src/sampler.rs: Sampler::get_camera_sample"])
P("The container and the order of the shapes do not change the image",
  "Rendering a scene with the simple container or with a k-d tree of any depth, and adding its shapes to the builder in any order, gives the same lights, the same answers about rays, and, with the Halton sampler, the same render: the same reachable states, the same output file, under every schedule of any number of threads.  Excepted are scenes in which some camera sample makes the integrator ask about a ray whose answer is ambiguous or known to be wrong: one that meets two shapes at exactly the same distance, one that lies exactly in a face of a shape's bounding box (there the k-d tree loses hits, C29), or one whose origin or direction is not finite or whose direction is zero.  More generally, in any arithmetic, two scenes with the same lights that answer alike about all rays asked give the same render.",
  "all scenes of finite spheres, triangles, area lights and distant lights, all orders, both containers and all depths, all cameras, films, filters, sample counts, thread counts and schedules; exact arithmetic (the last sentence: any arithmetic, any scenes)",
  "two whole renders must coincide for every scene, every order of the shapes, every tree that the heuristics may build and every schedule",
  ["src/scene.rs: Builder::construct", "src/container_simple.rs: Simple", "src/container_kdtree.rs: KdTree", "src/integrator.rs: Integrator::render, Integrator::li", "src/light.rs: DistantLight::pre_process"])
P("More samples per pixel only add samples",
  "Two completed renders of the same picture with the Halton sampler, one with fewer and one with more samples per pixel: the samples of the first render are among those of the second (same places on the film, same light), and every pixel of the second image is the pixel of the first plus the filtered sum of the additional samples; with a filter that is nowhere negative no pixel loses light or weight.  What a computation draws from the sampler in the i-th sample of a pixel does not depend on the number of samples per pixel (in any arithmetic).",
  "all scenes, cameras, films, filters, pairs of sample counts below 2^32, thread counts and schedules of both renders; exact arithmetic for the sums, any arithmetic for the single sample",
  "relates two renders with arbitrary sample counts and independent schedules",
  ["src/sampler_halton.rs: HaltonSampler::new, start_pixel, start_next_sample", "src/integrator.rs: Integrator::render", "src/film.rs: FilmTile::add_sample, Film::merge_film_tile"])
P("A surface does not hit itself",
  "Let a ray be spawned at a point of a triangle - a reported hit, with or without vertex normals and with either orientation, or a point sampled for lighting. Then intersect on that triangle with the spawned ray reports nothing and intersect_p answers false, in whatever direction the ray goes. A shadow ray from a point of one triangle to a point of another hits neither of the two, provided pushing the two end points off their surfaces carries neither across the plane of the other triangle. A ray spawned at a hit of a sphere in a direction that does not go into the sphere does not hit it, nor does a shadow ray to a point on the outer side of the tangent plane whose pushed-off position is on that side too.",
  "every triangle, every sphere of positive radius, every hit and every sampled point on them, every non-zero direction, every second end point of a shadow ray, every outward-going choice of the neighbour operations; exact arithmetic",
  "A spurious self-hit darkens isolated pixels for particular combinations of point, normal and direction; a test tries some of them.",
  ["src/interaction.rs:Interaction::spawn_ray", "src/interaction.rs:Interaction::spawn_ray_to", "src/interaction.rs:Interaction::offset_ray_origin", "src/shape_triangle.rs:Triangle::intersect", "src/shape_triangle.rs:Triangle::sample", "src/shape_sphere.rs:Sphere::intersect"])
P("Matt scenes have no fireflies",
  "In a scene of matt spheres and of matt triangles without vertex normals, lit by shining triangles and distant lights, no camera sample is brighter than a fixed multiple of the brightest light. The multiple is computed from the greatest reflectance and the number of lights alone: it does not depend on how near, how large or at what angle a light is seen, on the path or on the sample values. If no surface reflects more than 95% it is 1 + 93 per light, and 1 + 772 per light if surfaces reflect everything. No pixel channel is above 14 times that.",
  "every such scene from any history of builder calls in either container, every camera ray, every sampler delivering values in [0,1), every path; every finished render, in exact arithmetic",
  "A firefly is a rare sample: a light one grazes or nearly touches, a path that survives many roulettes. Tests with random samples do not meet the worst case; the bound has to hold for all values and all geometries.",
  ["src/integrator.rs: li, estimate_direct, uniform_sample_one_light", "src/sampling.rs: power_heuristic", "src/light.rs: AreaLight::sample_li", "src/bxdf_lambertian_reflection.rs"])
P("The picture is an upright perspective picture",
  "With a camera placed by look_at and a perspective projection, the ray of a film position meets a point of space exactly if the point is in front of the eye and the film position is its perspective projection: coordinate across and up, divided by the depth and by the tangent of half the field of view, mapped to the screen window, counted in pixels from the left and from the top. So of two equally deep points the one farther up is nearer to the top of the picture and the one farther to the side of up x (look - pos) is farther right; if the window has the proportions of the picture, lengths across the view are shown at the same scale in all directions, inversely proportional to depth; the point looked at is in the middle for a symmetric window; and the points that appear inside the picture are those between the edges of the window scaled by depth and field of view.",
  "every eye, point looked at and up direction that is not along the view, every field of view between 0 and 180 degrees, window, resolution, film position and point of space, in exact arithmetic",
  "A flipped axis, a transposed matrix, a window scaled by the wrong side or an inverted ratio shows in a picture, not in a unit test; that every point lands at its place is a statement about all points.",
  ["src/camera.rs: PerspectiveCamera::new, generate_ray", "src/transform.rs: look_at, perspective, apply, inverse"])
P("Materials announce the finishes they were given",
  "A matt material is matt; a mirror is a mirror; a metal, a coat of plastic and glass are sharp (specular) exactly when their roughness is zero and blurred (glossy) otherwise; each layer is left out exactly when its colour is black, and the layers come in a fixed order. A specular component has value and density zero for every pair of directions given from outside, so light is found along it only by following its own sample; and no other component is specular, so light sampling is done for all others.",
  "every texture, every surface point, every pair of directions, in any arithmetic (single precision included)",
  "Whether a component counts as specular decides whether direct light is sampled and whether the next hit's emission counts; with the wrong announcement light is counted twice or not at all, and the picture merely looks a bit too bright or too dark.",
  ["src/material_metal.rs", "src/material_glass.rs", "src/material_plastic.rs", "src/material_mirror.rs", "src/material_lambertian_reflection.rs", "src/reflection.rs: BSDF", "src/bxdf_specular_reflection.rs", "src/bxdf_specular_transmission.rs"])
P("Noise falls with the number of samples",
  "With the random sampler, one thread and independent, equally likely numbers, the expected colour and weight that a pixel gathers grow in proportion to the number of samples per pixel, and so do their variances: the noise relative to the value falls as one over the square root of the number. In a scene of matt surfaces every channel of every pixel has an expected value that does not depend on the number of samples, and the probability that the finished picture misses it by eps or more is at most a constant, computed from the filter, the brightest light and the number of lights, divided by the number of samples and by eps squared: the picture converges.",
  "every number of samples, every filter and (for convergence) every scene of matt spheres, matt and shining triangles and distant lights, every camera, film, pixel, channel and eps, every finite set of equally likely numbers in [0, 1), in exact arithmetic",
  "A renderer that reuses numbers, correlates samples or has an estimator of infinite variance still draws plausible pictures; that they converge, and how fast, is a statement about all streams of numbers and all sample counts.",
  ["src/integrator.rs: render, li, uniform_sample_one_light", "src/sampler_random.rs: RandomSampler", "src/film.rs: add_sample, merge_film_tile, write_image_ppm"])
P("Light comes from lamps only",
  "If no light source and no emitting shape of a scene has any light in a colour channel, then no sample and no pixel has any in that channel, whatever the shapes, materials, sampler, filter and schedule: in the image file the channel's number is nowhere above that of black. In particular the image of a scene without lamps is black. A camera ray that meets nothing brings exactly no light, and a pixel all of whose rays meet nothing is black. A camera ray that meets a lamp brings at least the light that the lamp emits towards the camera, and a pixel all of whose rays meet lamps of at least some brightness is at least that bright.",
  "every history of builder calls with arbitrary shapes, materials and lights, every container, camera, film, sampler, filter, number of threads and schedule; the first part in every arithmetic that respects 'no light', including IEEE single precision with NaNs and infinities; brightness at least that of the lamp: every scene that keeps its contract, exact arithmetic",
  "A stray constant, an ambient term or a wrong weight shows only in the scenes where it happens to be visible; that there is no other source of light than the lamps is a claim about all scenes, paths and rounding errors.",
  ["src/integrator.rs: li, estimate_direct, uniform_sample_one_light", "src/film.rs: add_sample, merge_film_tile, write_image_ppm", "src/light.rs: AreaLight::l, Light::sample_li", "src/scene.rs: Scene::construct"])
P("A matt surface in the light of a distant lamp has exactly the brightness of Lambert's law",
  "If the camera sees a point of a matt surface, a distant light is the only lamp and nothing else can be seen from that point on the camera's side, then every camera sample brings exactly reflectance x light x cosine / pi when the lamp is on the camera's side and not hidden, and exactly no light when the lamp is on the other side or hidden: independently of the random numbers, so without noise. In a world of one matt triangle or one matt sphere seen from outside, the object does not shadow itself and these are the only two cases. A pixel all over whose area the camera sees the lit side of a matt triangle of one colour has exactly that colour, whatever the number of samples, threads and the schedule.",
  "every matt surface, texture, distant light direction and colour, camera, film position, sampler delivering values in [0,1), filter with non-negative values, number of samples and threads, schedule; exact arithmetic",
  "A wrong factor of pi or two, a missing cosine, a light counted twice or an object shadowing itself shows in a test only as a slightly different brightness of the chosen picture; the law must hold for every angle, colour and random number.",
  ["src/integrator.rs: li, uniform_sample_one_light, estimate_direct", "src/reflection.rs: BSDF::f, BSDF::sample_f", "src/bxdf_lambertian_reflection.rs: LambertianReflectionBRDF", "src/light.rs: DistantLight::sample_li", "src/interaction.rs: spawn_ray_to, offset_ray_origin", "src/material_lambertian_reflection.rs: LambertianReflectionMaterial"])
P("What no ray meets does not change the picture",
  "Adding to a world a shape that none of the rays traced for the picture meets leaves every reachable state of the rendering, and so the file, exactly the same, provided the shape does not enlarge the scene or the lamps are area lights. A sphere or triangle is not noticed by a ray that passes it or that only meets it behind its start. A triangle the corners of which are on one line is noticed by no ray, and in single precision a triangle with two equal corners is noticed by no ray, so degenerate triangles of a mesh are harmless.",
  "every sequence of builder calls, additional sphere or triangle and place of the additional call, camera, film, filter, number of samples and threads, schedule; single precision for triangles with two equal corners (coordinates up to 2^20, brute-force container), exact arithmetic and either container otherwise",
  "A test compares two pictures of a scene; that an invisible shape changes no reported hit has to hold for every ray that can be traced, with the rounding of every coordinate, and a degenerate triangle can give 0/0 for just one ray direction.",
  ["src/shape_triangle.rs: Triangle::intersect, Triangle::intersect_p", "src/shape_sphere.rs: Sphere::intersect", "src/container_simple.rs: Simple", "src/container_kdtree.rs: KdTree", "src/scene.rs: Scene", "src/integrator.rs: render"])
P("Smooth glass and metal show the mirrored and the refracted view",
  "The mean brightness seen at a point of smooth glass is its own emission, plus what comes in along the mirrored direction times the reflection colour times the share that Fresnel's equations give for the angle, plus what comes in along the direction of Snell's law times the transmission colour times the rest of the light times the squared ratio of the refractive indices; where there is no such direction only the mirrored part is seen. Smooth metal shows the mirrored part with the reflectance of its complex index. This holds if no lamp is the first thing seen along these directions; a lamp seen directly in glass is counted once more, as in a mirror. Through a plate with parallel faces the view is straight: it shows at least what comes in behind it along the continuation of the ray times both colours and the squared share that one face lets through.",
  "every scene, hit point with a unit normal and a perpendicular tangent, unit direction of view that is not along the surface, colours that are not entirely black, positive refractive index, colour channel and number of further scatterings; exact arithmetic, mean over independent uniform samples",
  "The renderer picks one of the two directions at random and weights it; that the mean is the sum with exactly these shares, with no factor two from the choice, is a statement about an integral and about every angle on either side of the surface.",
  ["src/material_glass.rs: GlassMaterial", "src/material_metal.rs: MetalMaterial", "src/bxdf_specular_reflection.rs: SpecularReflectionBRDF", "src/bxdf_specular_transmission.rs: SpecularTransmissionBTDF", "src/fresnel.rs: fr_dielectric, fr_conductor", "src/reflection.rs: BSDF", "src/integrator.rs: Integrator"])
P("Resolution and window only choose what part of one view is sampled",
  "For a camera that stands in one place and looks in one direction, the ray through a film position depends only on how far to the side and up it points. So a picture with a times the columns and b times the rows shows the same things a times as far to the right and b times as far down; a picture of the part of the window that belongs to a block of pixels is that block of the picture; a window k times as large with a field of view k times as narrow (by the tangent of half the angle) gives the same picture. The distance of the point looked at, the length of the up direction and its lean forwards, and the near and far planes change nothing. Two cameras in the same place that see one common point through two film positions see everything alike through them.",
  "every eye position, viewing and up direction, field of view between 0 and 180 degrees, near and far plane, window and resolution of positive size, film position, factor, block of pixels; exact arithmetic",
  "A test compares a few pictures; the statements are identities in all camera parameters, and a raster mapping that is off by a pixel or uses the wrong edge of the window agrees at particular sizes.",
  ["src/camera.rs: PerspectiveCamera::new, PerspectiveCamera::generate_ray", "src/transform.rs: Transform::look_at, Transform::perspective", "src/integrator.rs: Integrator"])
P("A matt surface in the light of several distant lamps has on average the sum of their Lambert brightnesses",
  "If the camera sees a point of a matt surface, all lamps are distant lights and nothing else can be seen from that point on the camera's side, then every camera sample is exactly the Lambert brightness (reflectance x light x cosine / pi, or nothing for a lamp that is hidden or on the other side) of one of the lamps multiplied by the number of lamps, whatever the sampler delivers; and the mean over independent uniform sample values is exactly the sum of the Lambert brightnesses of all lamps. In a world of one matt triangle made by the builder no lamp on the camera's side is hidden.",
  "every matt surface, texture, number, directions and colours of distant lights, camera, film position, sampler delivering values in [0,1); exact arithmetic",
  "A rendered picture of several lamps is noisy, so a test can only compare averages up to a tolerance; a wrong factor in the choice of the lamp, or a lamp never chosen, is a bias that small samples do not show.",
  ["src/integrator.rs: IntegratorLocal::uniform_sample_one_light", "src/light.rs: DistantLight", "src/material_lambertian_reflection.rs: LambertianReflectionMaterial", "src/scene.rs: Builder"])
P("What lies behind a matt face does not change its brightness",
  "If the camera sees a flat matt triangle, all lamps are distant lights and no triangle of the world has a corner in front of the plane of the seen one (on the camera's side), then every camera sample is exactly the Lambert brightness (reflectance x light x cosine / pi, or nothing for a lamp behind the plane) of one of the lamps multiplied by their number, and the mean is the sum over the lamps, whatever else there is behind the plane, of whatever library material, and whichever container holds it. In particular each face of a convex body seen from outside shows exactly Lambert's law: the body does not shadow, reflect onto or shine through itself. A pixel all over whose filter area the camera sees one such face of one colour therefore has, in the finished picture, exactly the colour of Lambert's law with one lamp, and on average the sum over the lamps with several.",
  "every list of triangles with library materials, number, directions and colours of distant lights, brute-force container or k-d tree of any depth, camera, film position, sampler delivering values in [0,1); exact arithmetic",
  "Self-shadowing of a mesh (shadow acne) appears for particular faces, distances and light directions only, and a test can try only some meshes; the claim is about every convex mesh and every ray the sampler can choose.",
  ["src/integrator.rs: IntegratorLocal::render", "src/interaction.rs: Interaction::spawn_ray", "src/container_kdtree.rs: KdTree", "src/container_simple.rs: Simple", "src/shape_triangle.rs: Triangle", "src/light.rs: DistantLight"])
P("The numbers in the image file are exact to within one, in single precision",
  "When a render with the Halton sampler has completed, with any number of threads and in any schedule, the file is a plain PPM image of the film's size, and each of its numbers is within 1 of 255 x srgb(colour) + 1/2, where the colour is the exact quotient of two sums over the camera samples that count for the pixel: filter weight times light, and filter weight, cut off at 1. All additions, products, merges, divisions and the gamma curve are done in single precision; the claim bounds what they can do together. It holds for pixels for which between 1 and 12500 samples count, with light up to 2^50 and filter weights between 2^-40 and 2^40. For films of up to 4096 pixels on a side with a Gaussian filter whose radius is a multiple of 1/1024 from 1/2 to 7 (alpha times radius squared between 1/4 and 8), the samples that count are all valid samples of the film whose footprint contains the pixel, and they are at most (2 ceil(radius) + 1)^2 times the samples per pixel, so the claim holds for the whole image (for radius 2, with up to 500 samples per pixel).",
  "all radiance computations (in particular all scenes and cameras), image sizes up to 2^22 on a side, filters of radius up to 7, sample counts, numbers of threads and schedules; f32 arithmetic; every powf that is monotone and accurate to 2^-20 between 0.003 and 2",
  "Rounding errors add up differently for every scene, tile layout and schedule; a test compares a few images with other images computed by the same arithmetic and cannot bound the distance from the exact result.",
  ["src/film.rs: FilmTile::add_sample, Film::merge_film_tile, Film::write_image_ppm, gamma_correct", "src/integrator.rs: IntegratorLocal::render", "src/sampler_halton.rs: HaltonSampler"])
P("Vector arithmetic is accurate in single precision",
  "Normalising a vector whose coordinates are at most 2^53 and not all below 2^-50 gives a vector of numbers; each coordinate is that of the exact unit vector up to a relative error of 4/2^24 (and half the smallest number), and the squared length is one up to 9/2^24; the reported length has a relative error of at most 3/2^24. The scalar product is off by at most 4/2^24 of the sum of the absolute products (and 2^-147), each coordinate of the vector product by at most 3/2^24 of its two absolute products. The coordinate system constructed around a unit vector is orthonormal: the first vector up to 2^-20, the second up to 2^-17 in the square of its length and 2^-19 in the inner products. Outside the range normalising fails: length 2^64 gives the zero vector, length 2^-75 infinity and NaN.",
  "all vectors of f32 in the stated ranges; every square root with a relative error of at most 1.001/2^24",
  "The bounds must hold for all 2^96 vectors; cancellation, overflow and underflow occur at places that no sample of vectors shows.",
  ["src/vector.rs: Vector3f::dot, cross, construct_coordinate_system", "src/vector_macro.rs: length, normalize"])
P("Applying a transform in single precision",
  "A transformed direction or normal is a vector of numbers, each coordinate off from the exact product of matrix and vector by at most four roundings (2^-22) of the sum of the sizes of its terms. A point under a matrix with last row 0 0 0 1 is never divided: the computed weight is exactly one, and each coordinate is off by at most six roundings of the sum of the sizes of its terms. Moving a point and back changes a coordinate by at most 2^-19 of the sizes of coordinate and shift; it is not exact.",
  "all matrices, vectors, normals and points with entries and coordinates up to 2^60 (2^50 for there and back); f32 arithmetic",
  "The error depends on all entries of the matrix and on the point; tests compare a few products with a tolerance chosen by hand.",
  ["src/transform.rs: impl Transformable for Vector3f / Normal3f / Point3f, Transform::translate, apply, inverse_apply"])
P("Shading frames in single precision",
  "At a shading point whose normal has length one, whose tangent is neither tiny nor huge and where the two are perpendicular up to an angle e, the axes of the computed frame are of length one and pairwise perpendicular up to 2^-19 (and e, for normal and tangent), and turning a direction into the frame and back gives the direction again up to 2^-15 + 7 e in each coordinate. Every hit on a triangle without vertex normals, with edges between 2^-20 and 2^20 and a third angle between 8 and 172 degrees, is such a point with e = 2^-16, every hit on a triangle with vertex normals whose interpolated normal is not tiny and at least 9 degrees from the line of the tangent with e = 2^-19, and every hit on a sphere of radius up to 2^20 away from its poles (where the tangent is shorter than 2^-42) with e = 2^-20.",
  "all shading points as described with e up to 1/16, all directions with coordinates in [-1, 1], all lists of scattering functions; f32 arithmetic; every square root that is accurate as IEEE 754 demands",
  "Errors of the normalised tangent, of the cross product and of six products in a row add up differently for every surface and direction.",
  ["src/reflection.rs: BSDF::new, BSDF::world_to_local, BSDF::local_to_world", "src/shape_triangle.rs: Triangle::intersect", "src/shape_sphere.rs: Sphere::intersect, compute_partial_derivative", "src/vector_macro.rs: normalize", "src/vector.rs: cross, dot"])

if __name__ == "__main__":
    out = os.path.join(os.path.dirname(os.path.abspath(__file__)), "..", "properties.jsonl")
    with open(out, "w") as f:
        for r in ROWS: f.write(json.dumps(r, ensure_ascii=False) + "\n")
    print(len(ROWS))
