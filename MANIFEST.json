{
 "claims": [
  {
   "property": "C01",
   "status": "proved",
   "theorems": [
    "PT.c01_pixel_iteration_exact",
    "PT.c01_none_is_final",
    "PT.c01_count",
    "PT.c01_wrapping"
   ],
   "note": "c01_wrapping: the same with every i32 operation wrapping, for every box of i32 corners."
  },
  {
   "property": "C02",
   "status": "proved",
   "theorems": [
    "PT.c02_tiles_partition",
    "PT.c02_wrapping",
    "PT.c02_film_region",
    "PT.c02_film_region_f32",
    "PT.c02_wraps"
   ],
   "note": "c02_wrapping: with every i32 operation wrapping the iterator gives the same tiles, for regions up to 2^31-17 wide and high; the films considered in C04-C06 have such regions (c02_film_region, c02_film_region_f32). At the end of the i32 range the number of tiles wraps (c02_wraps)."
  },
  {
   "property": "C03",
   "status": "proved",
   "theorems": [
    "PT.c03_sample_footprint",
    "PT.c03_f32"
   ],
   "note": "In exact arithmetic for all films; in single precision for sides up to 4096 and filter radii up to 7 that are multiples of 1/1024, where the footprint is the exact one up to 2^-10 and no pixel of the image is dropped at a tile border."
  },
  {
   "property": "C04",
   "status": "proved",
   "theorems": [
    "PT.c04_add_sample_never_panics",
    "PT.c04_tile_slots",
    "PT.c04_film_slots",
    "PT.c04_merge_never_panics",
    "PT.c04_merge_never_panics_f32",
    "PT.c04_area_wraps"
   ],
   "note": "Images with fewer than 2^31 pixels (at 65536x65536 the i32 area is 0 and no pixel has a slot, c04_area_wraps). Merging is proved for exact arithmetic and, with the rounded tile borders, for f32 (radius up to 2^21, sides up to 2^22)."
  },
  {
   "property": "C05",
   "status": "proved",
   "theorems": [
    "PT.c05_film_is_filtered_sum",
    "PT.c05_order_independent",
    "PT.c05_f32"
   ],
   "note": "The first two in exact arithmetic. c05_f32: single precision, Gaussian filter, images up to 4096 x 4096, radius a multiple of 1/1024 from 1/2 to 7, at most 12500 samples within the radius, light of ordinary size and a valid sample in every pixel; the exponential function of the math library is assumed accurate to 2^-20."
  },
  {
   "property": "C06",
   "status": "proved",
   "theorems": [
    "PT.c06_every_tile_once",
    "PT.c06_schedule_independent",
    "PT.c06_f32_order_matters"
   ],
   "note": "Exactly-once and whole merges for every scalar type; equality of the results of different schedules in exact arithmetic with the Halton sampler (in f32 the order of merging shows in the last bits, c06_f32_order_matters; see C98)."
  },
  {
   "property": "C07",
   "status": "proved",
   "theorems": [
    "PT.c07_never_stuck",
    "PT.c07_bounded",
    "PT.c07_completes"
   ],
   "note": "For every scalar type; c07_completes needs the tile buffers inside the image, which tilesFit_real and tilesFit_f32 prove."
  },
  {
   "property": "C08",
   "status": "proved",
   "theorems": [
    "PT.c08_no_image_after_panic",
    "PT.c08_no_other_panic"
   ],
   "note": ""
  },
  {
   "property": "C09",
   "status": "proved",
   "theorems": [
    "PT.c09_ppm_well_formed",
    "PT.c09_unambiguous"
   ],
   "note": "c09_unambiguous: the text determines the size and every pixel."
  },
  {
   "property": "C10",
   "status": "partial",
   "theorems": [
    "PT.c10_refuted_black_is_one",
    "PT.c10_refuted_black_is_one_f32",
    "PT.c10_channel_partial",
    "PT.c10_off_by_at_most_one_partial",
    "PT.c10_f32_partial"
   ],
   "note": "The claim is false of the code (black is written as 1, the value is scaled and then increased); the refutations and what does hold are proved. In single precision (c10_f32_partial) the channel is at most 1.01 above and 0.01 below 255 times the gamma-corrected colour, if the power function of the math library is accurate to 2^-20."
  },
  {
   "property": "C100",
   "status": "partial",
   "theorems": [
    "PT.c100_facet_exists",
    "PT.c100_facet_passes_partial",
    "PT.c100_no_facet_but_light",
    "PT.c100_facet_exists_inside",
    "PT.c100_facet_passes_inside_partial",
    "PT.c100_inside_no_facet_but_light",
    "PT.c100_inside_always"
   ],
   "note": "False of the code: c100_no_facet_but_light proves that light passes between directions that no facet bends into each other (the code never checks that they lie on different sides of the facet). Proved: when such a facet exists, and that light passes wherever a facet that faces upwards bends it from air into the glass or (facets that are not vertical) from the glass into air. From inside some light passes for almost every pair of directions on the two sides (c100_inside_always)."
  },
  {
   "property": "C101",
   "status": "proved",
   "theorems": [
    "PT.c101_radiance",
    "PT.c101_image",
    "PT.c101_radiance_one_by_one",
    "PT.c101_image_one_by_one"
   ],
   "note": "Exact arithmetic. A scene is a list of pieces without colours (Spec.Fixture) and a colour for each (Spec.furnished); Spec.only lights one lamp. The lamps that are black are still there: light is chosen among all of them. Images: triangles and non-negative colours, so that no sample is thrown away as invalid."
  },
  {
   "property": "C102",
   "status": "proved",
   "theorems": [
    "PT.c102_image",
    "PT.c102_any_sampler"
   ],
   "note": "Exact arithmetic. c102_any_sampler says the same of every sampler that counts the samples of a pixel and gives numbers in [0, 1), in particular the random one, except that the numbers a sample is computed from may depend on the schedule. Composes the results on tiles (C02), footprints (C03), films (C05), threads (C06), sample counts (C22), Halton histories (C23) and sample places (C25). The sampled pixels are given as any list without repetitions of the pixels of Spec.Sampled."
  },
  {
   "property": "C103",
   "status": "proved",
   "theorems": [
    "PT.c103_between",
    "PT.c103_uniform",
    "PT.c103_covered",
    "PT.c103_triangle_world",
    "PT.c103_narrow_filter",
    "PT.c103_f32"
   ],
   "note": "Exact arithmetic, but for c103_f32, which bounds the numbers in the file in single precision under the hypotheses of C119 for a Gaussian filter. c103_triangle_world puts both halves together for scenes of triangles. The reach of half a pixel is needed: c103_narrow_filter shows that with a smaller radius and one sample per pixel the first pixel of every image stays without weight."
  },
  {
   "property": "C104",
   "status": "proved",
   "theorems": [
    "PT.c104_one_thread",
    "PT.c104_one_stream",
    "PT.c104_mean_pixel",
    "PT.c104_triangle_world",
    "PT.c76_library_real_random"
   ],
   "note": "c104_one_thread (any arithmetic, any sampler): a completed render with one thread is the fold of rendering and merging the tiles in turn. c104_one_stream: with the random sampler its pixels are the filtered sums of the samples that one computation draws from the generator. c104_mean_pixel: mean colour and weight for any radiance program that never fails and is non-negative. c104_triangle_world: scenes of triangles, with the light transport recursion of C78 as the mean radiance. c76_library_real_random: such renders never panic and can be completed. With several threads the random sampler is cloned and the streams coincide (C26); the mean is stated for one thread."
  },
  {
   "property": "C105",
   "status": "proved",
   "theorems": [
    "PT.c105_same_answers",
    "PT.c105_scenes",
    "PT.c105_same_image"
   ],
   "note": "Exact arithmetic with an exact square root for the scenes; the exceptions are spelled out by Spec.Delicate and Spec.SampleTraces (which rays a camera sample asks about).  c105_same_answers holds in any arithmetic. SameImageDemo.lean has a concrete scene of three shapes, two orders and both containers, in which no camera sample of any film asks about a delicate ray."
  },
  {
   "property": "C106",
   "status": "proved",
   "theorems": [
    "PT.c106_same_sample",
    "PT.c106_more_samples",
    "PT.c106_only_adds"
   ],
   "note": "c106_same_sample holds in any arithmetic; the image sums are exact."
  },
  {
   "property": "C107",
   "status": "proved",
   "theorems": [
    "PT.c107_triangle",
    "PT.c107_shadow_ray",
    "PT.c107_sphere"
   ],
   "note": "Exact arithmetic, with next_float_up and next_float_down replaced by any operations that do not go inward. Rays that go into a sphere are not covered: they must find its far side."
  },
  {
   "property": "C108",
   "status": "proved",
   "theorems": [
    "PT.c108_sample",
    "PT.c108_numbers",
    "PT.c108_image"
   ],
   "note": "Exact real arithmetic. c108_sample bounds the luminance of every camera sample by Spec.brightest, c108_numbers evaluates the bound, c108_image carries it to the pixels of every finished render with the Halton sampler and a Gaussian filter."
  },
  {
   "property": "C109",
   "status": "proved",
   "theorems": [
    "PT.c109_seen_at",
    "PT.c109_upright",
    "PT.c109_undistorted",
    "PT.c109_centre",
    "PT.c109_in_picture"
   ],
   "note": "Exact real arithmetic. The specification (View.project) is the textbook formula; c109_seen_at says that the rays computed through the matrices agree with it."
  },
  {
   "property": "C11",
   "status": "proved",
   "theorems": [
    "PT.c11_monotone",
    "PT.c11_monotone_f32"
   ],
   "note": "In single precision the power function of the math library is assumed to be monotone and at least 0.09 above the switch-over point; infinite sums are included. Demo.fine_monotone and Demo.fine_accurate show a library with both properties."
  },
  {
   "property": "C110",
   "status": "proved",
   "theorems": [
    "PT.c110_matt",
    "PT.c110_mirror",
    "PT.c110_metal",
    "PT.c110_glass",
    "PT.c110_plastic",
    "PT.c110_specular_only_sampled",
    "PT.c110_smooth_dark"
   ],
   "note": "For every arithmetic, except c110_smooth_dark (exact reals)."
  },
  {
   "property": "C111",
   "status": "proved",
   "theorems": [
    "PT.c111_variance",
    "PT.c111_converges",
    "PT.c111_matt_world"
   ],
   "note": "Exact real arithmetic; the generator is idealised as independent draws, each of the values of a finite list being equally likely (the multiples of 2^-24 in the example). c111_variance holds for every radiance program that never fails and never returns a negative channel. The expected value is the quotient of expected colour and expected weight; that these are the values of the light transport equations is C104 and C78."
  },
  {
   "property": "C112",
   "status": "proved",
   "theorems": [
    "PT.c112_film",
    "PT.c112_file",
    "PT.c112_no_lamps",
    "PT.c112_background",
    "PT.c112_background_pixel",
    "PT.c112_lamp",
    "PT.c112_lamp_pixel"
   ],
   "note": "c112_film, c112_background: every arithmetic. c112_file, c112_no_lamps: IEEE single precision; black is written as 1 (C10), so the bound is 1, and a NaN pixel is written as 0; the math library is only assumed to map NaN to NaN under powf. c112_background_pixel, c112_lamp, c112_lamp_pixel: exact arithmetic, the pixel statements for the Halton sampler."
  },
  {
   "property": "C113",
   "status": "proved",
   "theorems": [
    "PT.c113_sample",
    "PT.c113_triangle",
    "PT.c113_sphere",
    "PT.c113_pixel"
   ],
   "note": "Exact arithmetic. Worlds of one object are in the simple container. The next-representable functions are only assumed not to move inward. Assumed: the shadow ray has a direction, that is, the pushed-off start is not exactly the end point; for the sphere that the ray does not graze it exactly. c113_pixel: Halton sampler."
  },
  {
   "property": "C114",
   "status": "proved",
   "theorems": [
    "PT.c114_unmet",
    "PT.c114_collapsed",
    "PT.c114_collapsed_image",
    "PT.c114_passed",
    "PT.c114_passed_image",
    "PT.c114_flat",
    "PT.c114_flat_image"
   ],
   "note": "Halton sampler. A shape that enlarges the scene box can move the end of the shadow rays of distant lights, so the box must stay the same or there must be no distant light. In single precision a ray without direction or coordinates near the overflow can make a collapsed triangle report NaN, so coordinates are at most 2^20 and the direction is not zero. Exact arithmetic, either container: no traced ray is delicate in the sense of C105 (starts on the face of a box, or meets two shapes at the same distance)."
  },
  {
   "property": "C115",
   "status": "proved",
   "theorems": [
    "PT.c115_glass",
    "PT.c115_glass_lamps",
    "PT.c115_metal",
    "PT.c115_straight",
    "PT.c115_plate"
   ],
   "note": "incoming is the mean radiance of C78 (the mean of the camera samples of scenes of the library). Glass with both colours not black. c115_glass_lamps states what the code computes when lamps are seen directly: their emission is counted once more, the defect of C85."
  },
  {
   "property": "C116",
   "status": "proved",
   "theorems": [
    "PT.c116_one_point",
    "PT.c116_same_ray",
    "PT.c116_resolution",
    "PT.c116_crop",
    "PT.c116_zoom",
    "PT.c116_indifferent"
   ],
   "note": "Exact arithmetic. c116_indifferent: the computation of every camera sample, and so of every tile, is the same."
  },
  {
   "property": "C117",
   "status": "proved",
   "theorems": [
    "PT.c117_sample",
    "PT.c117_incoming",
    "PT.c117_triangle"
   ],
   "note": "Exact arithmetic. c117_incoming is about the light transport recursion, which C78 identifies with the mean of the samples; c117_triangle states the mean itself. Assumed in c117_triangle: no shadow ray has length zero; the next-representable functions do not move inward; the simple container."
  },
  {
   "property": "C118",
   "status": "proved",
   "theorems": [
    "PT.c118_nothing_in_front",
    "PT.c118_convex",
    "PT.c118_pixel",
    "PT.c118_mean_pixel"
   ],
   "note": "Exact arithmetic. The builder adds the triangles, then the lamps. Assumed: no shadow ray has length zero; the next-representable functions do not move inward; in c118_convex the corners of each face are ordered so that its plane normal points outward, and the camera is in front of the face it sees. c118_pixel: the Halton sampler, any filter that is nowhere negative, any number of threads; c118_mean_pixel: the random sampler, the Gaussian filter, one thread."
  },
  {
   "property": "C119",
   "status": "proved",
   "theorems": [
    "PT.c119_number",
    "PT.c119_file",
    "PT.c119_all_samples",
    "PT.c119_few",
    "PT.c119_gaussian"
   ],
   "note": "c119_gaussian is the statement for renders as they are made (Gaussian filter, radius a multiple of 1/1024, up to 4096 pixels on a side, 500 samples per pixel at radius 2): there the samples that count are all valid samples of the film whose footprint contains the pixel, and no condition on the number of samples or the filter table is left. Single precision from the camera sample to the file. The light of a sample is whatever the radiance computation returns, and which samples count for a pixel, and with which entry of the filter table, is as the code computes it in single precision. PowfAccurate and PowfMonotone are assumptions on the platform's powf."
  },
  {
   "property": "C12",
   "status": "partial",
   "theorems": [
    "PT.c12_refuted_stale_tail",
    "PT.c12_output_partial"
   ],
   "note": "False of the code when the file exists and is longer (no truncation); proved for new or not longer files."
  },
  {
   "property": "C120",
   "status": "proved",
   "theorems": [
    "PT.c120_normalize",
    "PT.c120_products",
    "PT.c120_system",
    "PT.c120_range_needed"
   ],
   "note": "Single precision. AccurateSqrt is an assumption on the platform's square root (IEEE 754 demands more)."
  },
  {
   "property": "C121",
   "status": "proved",
   "theorems": [
    "PT.c121_vector",
    "PT.c121_normal",
    "PT.c121_point",
    "PT.c121_translate_back",
    "PT.c121_back_not_exact"
   ],
   "note": "Single precision. C47-C49 hold these laws exactly in real arithmetic; the code's comparison of the weight with one is shown to succeed for every matrix with last row 0 0 0 1."
  },
  {
   "property": "C122",
   "status": "proved",
   "theorems": [
    "PT.c122_axes",
    "PT.c122_round_trip",
    "PT.c122_plain_triangle",
    "PT.c122_smooth_triangle",
    "PT.c122_parallel_triangle",
    "PT.c122_sphere"
   ],
   "note": "Single precision. That frames are orthonormal in exact arithmetic, and where the code fails to give one, is C74. The perpendicularity of normal and tangent is an assumption on the shading point, with its error e carried through; c122_plain_triangle derives it, with e = 2^-16, for every hit on a triangle without vertex normals, c122_smooth_triangle, with e = 2^-19, for every hit on a triangle with vertex normals whose interpolated normal is not close to the tangent (c122_parallel_triangle: or so close to it that the code makes up another tangent), c122_sphere, with e = 2^-20, for every hit on a sphere away from its poles."
  },
  {
   "property": "C13",
   "status": "proved",
   "theorems": [
    "PT.c13_only_valid_radiance",
    "PT.c13_film_never_poisoned"
   ],
   "note": ""
  },
  {
   "property": "C14",
   "status": "proved",
   "theorems": [
    "PT.c14_gaussian",
    "PT.c14_f32",
    "PT.c14_table_f32",
    "PT.c14_outside_f32_partial"
   ],
   "note": "c14_gaussian is the property in exact arithmetic. In single precision: c14_f32 (range, symmetry, monotonicity, for any non-decreasing expf with values in [0,1]), c14_table_f32 (the 256 weights of a film are ordinary positive numbers), c14_outside_f32_partial (at most 2^-15 outside the radius, where exact arithmetic has 0)."
  },
  {
   "property": "C15",
   "status": "proved",
   "theorems": [
    "PT.c15_get1d_in_unit",
    "PT.c15_get2d_in_unit",
    "PT.c15_delivered_iff"
   ],
   "note": ""
  },
  {
   "property": "C16",
   "status": "proved",
   "theorems": [
    "PT.c16_radical_inverse",
    "PT.c16_f32"
   ],
   "note": "c16_radical_inverse: exact arithmetic; c16_f32: single precision, relative error 2^-22 (plus 2^-149)."
  },
  {
   "property": "C17",
   "status": "proved",
   "theorems": [
    "PT.c17_reversal_involutive",
    "PT.c17_reversal_digits"
   ],
   "note": ""
  },
  {
   "property": "C18",
   "status": "proved",
   "theorems": [
    "PT.c18_bezout",
    "PT.c18_no_overflow"
   ],
   "note": ""
  },
  {
   "property": "C19",
   "status": "partial",
   "theorems": [
    "PT.c19_refuted",
    "PT.c19_inverse_partial"
   ],
   "note": "False of the code when the Bezout coefficient is negative; proved otherwise."
  },
  {
   "property": "C20",
   "status": "partial",
   "theorems": [
    "PT.c20_refuted",
    "PT.c20_one_axis_partial"
   ],
   "note": "False of the code on one of the two axes; the other axis is proved for all pixels and sample numbers."
  },
  {
   "property": "C21",
   "status": "partial",
   "theorems": [
    "PT.c21_refuted",
    "PT.c21_distinct_partial",
    "PT.c21_distinct_tall_partial"
   ],
   "note": "False for regions of at most 81 rows that straddle a multiple of 128; proved for higher ones and, in general, for pixels with different tile cells."
  },
  {
   "property": "C22",
   "status": "proved",
   "theorems": [
    "PT.c22_halton_sample_count",
    "PT.c22_random_sample_count",
    "PT.c22_halton_setting"
   ],
   "note": ""
  },
  {
   "property": "C23",
   "status": "proved",
   "theorems": [
    "PT.c23_history_independent"
   ],
   "note": ""
  },
  {
   "property": "C24",
   "status": "proved",
   "theorems": [
    "PT.c24_dimensions",
    "PT.c24_enough_bases",
    "PT.c24_halton_never_exhausted",
    "PT.c24_bases"
   ],
   "note": ""
  },
  {
   "property": "C25",
   "status": "partial",
   "theorems": [
    "PT.c25_camera_sample_in_pixel",
    "PT.c25_camera_sample_f32_partial",
    "PT.c25_refuted_f32"
   ],
   "note": "Proved in exact arithmetic; in single precision the half-open claim is false (rounding up to p+1) and the closed one is proved."
  },
  {
   "property": "C26",
   "status": "partial",
   "theorems": [
    "PT.c26_refuted"
   ],
   "note": "False of the code: all worker threads draw the same sequence."
  },
  {
   "property": "C27",
   "status": "proved",
   "theorems": [
    "PT.c27_simple_closest"
   ],
   "note": ""
  },
  {
   "property": "C28",
   "status": "proved",
   "theorems": [
    "PT.KdTree.c28_build_complete",
    "PT.KdTree.c28_build_total",
    "PT.KdTree.c28_build_total_real"
   ],
   "note": ""
  },
  {
   "property": "C29",
   "status": "partial",
   "theorems": [
    "PT.c29_kdtree_closest_partial",
    "PT.c29_same_as_simple_partial",
    "PT.c29_scene_partial",
    "PT.c29_refuted"
   ],
   "note": "False of the code for rays lying exactly in a face plane; proved for all others in arithmetic without rounding."
  },
  {
   "property": "C30",
   "status": "proved",
   "theorems": [
    "PT.c30_simple",
    "PT.KdTree.c30_kdtree"
   ],
   "note": ""
  },
  {
   "property": "C31",
   "status": "proved",
   "theorems": [
    "PT.KdTree.c31_traversal_terminates"
   ],
   "note": ""
  },
  {
   "property": "C32",
   "status": "proved",
   "theorems": [
    "PT.KdTree.c32_greedy",
    "PT.KdTree.c32_surface_area"
   ],
   "note": "c32_greedy: any arithmetic, in terms of the code's own cost; c32_surface_area: exact arithmetic, against a separate statement of the surface area heuristic (surfaces of the two parts, number of shapes that reach into them, longest axis first)."
  },
  {
   "property": "C33",
   "status": "proved",
   "theorems": [
    "PT.c33_new",
    "PT.c33_union",
    "PT.c33_union_point",
    "PT.c33_bbox_of_shapes"
   ],
   "note": ""
  },
  {
   "property": "C34",
   "status": "partial",
   "theorems": [
    "PT.c34_no_false_negatives_partial",
    "PT.c34_f32_partial",
    "PT.c34_refuted"
   ],
   "note": "False of the code when a direction component is -0.0 and the origin is on a face; proved otherwise, in arithmetic without rounding and in single precision (parameter zero or between 2^-100 and 2^120, t_max not within rounding error of it)."
  },
  {
   "property": "C35",
   "status": "proved",
   "theorems": [
    "PT.c35_box_test"
   ],
   "note": ""
  },
  {
   "property": "C36",
   "status": "proved",
   "theorems": [
    "PT.c36_sphere_hit_real",
    "PT.c36_sphere_hit_extended"
   ],
   "note": ""
  },
  {
   "property": "C37",
   "status": "proved",
   "theorems": [
    "PT.c37_sphere_complete",
    "PT.c37_sphere_complete_extended"
   ],
   "note": ""
  },
  {
   "property": "C38",
   "status": "proved",
   "theorems": [
    "PT.c38_triangle_hit_real",
    "PT.c38_triangle_hit_extended"
   ],
   "note": ""
  },
  {
   "property": "C39",
   "status": "proved",
   "theorems": [
    "PT.c39_triangle_complete",
    "PT.c39_triangle_complete_extended"
   ],
   "note": ""
  },
  {
   "property": "C40",
   "status": "proved",
   "theorems": [
    "PT.c40_triangle",
    "PT.c40_triangle_agrees",
    "PT.c40_sphere",
    "PT.c40_area_light"
   ],
   "note": ""
  },
  {
   "property": "C41",
   "status": "partial",
   "theorems": [
    "PT.c41_sphere",
    "PT.c41_sphere_f32",
    "PT.c41_triangle_exact",
    "PT.c41_triangle_partial",
    "PT.c41_triangle_range_refuted",
    "PT.c41_triangle_overflow_refuted"
   ],
   "note": "Proved in full for spheres (any rounding) and for triangles without rounding; with rounding a triangle can report a distance above the limit or NaN (refutations proved), the other parts still hold."
  },
  {
   "property": "C42",
   "status": "proved",
   "theorems": [
    "PT.c42_triangle_sample",
    "PT.c42_uniform",
    "PT.c42_area",
    "PT.c42_f32"
   ],
   "note": "Exact arithmetic; c42_f32 bounds the rounding error of the point in single precision. c42_uniform: the mean of any function of the sampled point is its surface integral over the area."
  },
  {
   "property": "C43",
   "status": "proved",
   "theorems": [
    "PT.c43_mesh"
   ],
   "note": ""
  },
  {
   "property": "C44",
   "status": "proved",
   "theorems": [
    "PT.c44_strictly_off",
    "PT.c44_clears_error_box"
   ],
   "note": ""
  },
  {
   "property": "C45",
   "status": "proved",
   "theorems": [
    "PT.c45_shadow_ray",
    "PT.c45_range_f32"
   ],
   "note": ""
  },
  {
   "property": "C46",
   "status": "proved",
   "theorems": [
    "PT.c46_inverse_correct",
    "PT.toMat_transpose",
    "PT.toMat_mul"
   ],
   "note": ""
  },
  {
   "property": "C47",
   "status": "proved",
   "theorems": [
    "PT.c47_built_lawful"
   ],
   "note": ""
  },
  {
   "property": "C48",
   "status": "proved",
   "theorems": [
    "PT.c48_compose",
    "PT.c48_compose_point",
    "PT.c48_compose_vector",
    "PT.c48_compose_normal",
    "PT.c48_vector_perspective_differs"
   ],
   "note": ""
  },
  {
   "property": "C49",
   "status": "proved",
   "theorems": [
    "PT.c49_inverse_undoes",
    "PT.c49_inverse_apply_point",
    "PT.c49_inverse_apply_vector",
    "PT.c49_inverse_apply_normal",
    "PT.c49_inverse_undoes_ray",
    "PT.c49_inverse_undoes_interaction"
   ],
   "note": ""
  },
  {
   "property": "C50",
   "status": "proved",
   "theorems": [
    "PT.c50_normals_stay_perpendicular",
    "PT.c50_normal_dot",
    "PT.c50_interaction"
   ],
   "note": ""
  },
  {
   "property": "C51",
   "status": "partial",
   "theorems": [
    "PT.c51_refuted",
    "PT.c51_transformed_box_partial"
   ],
   "note": "False of the code for rotations (only two corners are transformed); proved for axis-aligned affine maps."
  },
  {
   "property": "C52",
   "status": "proved",
   "theorems": [
    "PT.c52_generate_ray",
    "PT.c52_raster_to_screen",
    "PT.c52_corners",
    "PT.c52_lookAt",
    "PT.c52_camera_ray",
    "PT.c52_left_handed",
    "PT.c52_f32"
   ],
   "note": "c52_f32 is about single precision, the others are exact. c52_camera_ray is the direction in closed form for a camera placed by look_at; c52_left_handed says which way round the picture is (mirrored for scenes given in right-handed coordinates)."
  },
  {
   "property": "C53",
   "status": "proved",
   "theorems": [
    "PT.c53_reflect",
    "PT.c53_same_side",
    "PT.c53_f32",
    "PT.c53_mirror_f32"
   ],
   "note": "c53_reflect, c53_same_side: exact arithmetic; c53_f32: the computed reflection of vectors with coordinates in [-1, 1] is within 2^-18 of the exact one in each coordinate; c53_mirror_f32: the direction a smooth mirror samples is within 2^-15 + 7e of the mirrored one in each coordinate, when normal and tangent are perpendicular up to e"
  },
  {
   "property": "C54",
   "status": "proved",
   "theorems": [
    "PT.c54_refract",
    "PT.c54_f32",
    "PT.c54_glass_f32"
   ],
   "note": "c54_refract: exact arithmetic; c54_f32: in single precision the decision is right unless the exact squared sine is within 2^-13 of 1, and a direction is that of Snell's law up to 2^-13 over its cosine (ratios of indices up to 4, any square root right within 1.001 half units); c54_glass_f32: so is the direction that smooth glass samples, and it is strictly on the other side."
  },
  {
   "property": "C55",
   "status": "proved",
   "theorems": [
    "PT.c55_dielectric_range",
    "PT.c55_dielectric_total",
    "PT.c55_dielectric_value",
    "PT.c55_dielectric_reversible",
    "PT.c55_conductor_range",
    "PT.c55_conductor_denominators",
    "PT.c55_conductor_value",
    "PT.c55_conductor_without_absorption",
    "PT.c55_f32"
   ],
   "note": "Exact arithmetic; c55_f32 is about the dielectric in single precision. c67_metal_negative (C67) shows that the conductor can fall below zero there."
  },
  {
   "property": "C56",
   "status": "proved",
   "theorems": [
    "PT.c56_glass_energy"
   ],
   "note": ""
  },
  {
   "property": "C57",
   "status": "proved",
   "theorems": [
    "PT.c57_lambertian_sample",
    "PT.c57_f32"
   ],
   "note": "Exact arithmetic, and single precision with error bounds (c57_f32)."
  },
  {
   "property": "C58",
   "status": "proved",
   "theorems": [
    "PT.c58_lambertian",
    "PT.c58_microfacet",
    "PT.c58_g_range",
    "PT.c58_fresnel_models"
   ],
   "note": ""
  },
  {
   "property": "C59",
   "status": "partial",
   "theorems": [
    "PT.c59_density_partial",
    "PT.c59_distribution_partial",
    "PT.c59_normalized",
    "PT.c59_pdf_is_not_the_density",
    "PT.c59_reflected_solid_angle",
    "PT.c59_transmitted_solid_angle",
    "PT.c59_transmitted_facet"
   ],
   "note": "The change from facet normals to directions is right: the reported pdf is that of the normal times the area the normal sweeps per area the direction sweeps (c59_reflected_solid_angle, c59_transmitted_solid_angle), with that area characterised by derivatives along great circles. But the pdf of the normal is wrong. False of the code: the density is D cos (proved for every pair of roughnesses and both sides, as an equality of integrals of every measurable function), the reported pdf is D / cos; both facts are proved."
  },
  {
   "property": "C60",
   "status": "proved",
   "theorems": [
    "PT.c60_sample_consistent",
    "PT.c60_specular_pick",
    "PT.c60_frame",
    "PT.c60_material_components",
    "PT.c60_materials",
    "PT.c60_single_component_mismatch"
   ],
   "note": "c60_single_component_mismatch shows why the restriction on a single component is needed."
  },
  {
   "property": "C61",
   "status": "proved",
   "theorems": [
    "PT.c61_select",
    "PT.c61_bsdf_never_panics",
    "PT.c61_light",
    "PT.c61_light_share",
    "PT.c61_share_f32",
    "PT.c61_none_left_out",
    "PT.c61_light_each",
    "PT.c61_light_each_f32",
    "PT.c61_component_each",
    "PT.c61_component_each_f32"
   ],
   "note": "c61_light holds in every arithmetic and for every sampler value; c61_light_share: exact arithmetic; c61_share_f32 and c61_none_left_out: f32, components and lights. These speak of the formulas for the index; c61_light_each and c61_component_each (and their f32 versions) say which light uniform_sample_one_light asks and which component BSDF::sample_f draws from."
  },
  {
   "property": "C62",
   "status": "proved",
   "theorems": [
    "PT.c62_power_heuristic",
    "PT.c62_counts",
    "PT.c62_power_heuristic_f32",
    "PT.c62_range_needed"
   ],
   "note": "c62_power_heuristic: exact arithmetic; c62_counts: any numbers of samples, and the weights are as the squares of number times density; c62_power_heuristic_f32: single precision with every rounding error; c62_range_needed: outside the range there is no weight (NaN)."
  },
  {
   "property": "C63",
   "status": "partial",
   "theorems": [
    "PT.c63_one_sided",
    "PT.c63_sample_matches_hit",
    "PT.c63_vertex_normals_refuted"
   ],
   "note": "One-sidedness proved; agreement of sampling and hitting proved for triangles without vertex normals, and refuted for triangles whose vertex normals point to the other side (sampling ignores them)."
  },
  {
   "property": "C64",
   "status": "proved",
   "theorems": [
    "PT.c64_distant_reaches"
   ],
   "note": ""
  },
  {
   "property": "C65",
   "status": "proved",
   "theorems": [
    "PT.c65_construct",
    "PT.c65_panics_simple",
    "PT.c65_panics_kdtree",
    "PT.c65_box"
   ],
   "note": ""
  },
  {
   "property": "C66",
   "status": "proved",
   "theorems": [
    "PT.c66_path_terminates",
    "PT.c66_bounds_reached"
   ],
   "note": ""
  },
  {
   "property": "C67",
   "status": "proved",
   "theorems": [
    "PT.c67_radiance",
    "PT.c67_real_rule",
    "PT.c67_float_rule",
    "PT.triangle_scene_contract",
    "PT.c67_triangle_scene",
    "PT.c67_triangle_world",
    "PT.c67_f32",
    "PT.c67_metal_negative"
   ],
   "note": "c67_radiance is the property for any arithmetic and any notion of non-negative that it respects; c67_real_rule and c67_float_rule give the two notions (reals >= 0; floats that are NaN or have no minus sign). triangle_scene_contract shows that scenes of triangles with any of the library's materials and lights keep the contract (exact arithmetic, either container, any history of builder calls); in exact arithmetic spheres are covered only through the contract. c67_f32: single precision, scenes of spheres and triangles with matt, mirror, smooth plastic and smooth glass surfaces, any history of builder calls, either container, any camera and sampler; every channel is NaN or has no minus sign; of the mathematical library only the signs of pi and of square roots are used. Metal and rough surfaces are left out there: c67_metal_negative shows a smooth metal of index one, seen at 68 degrees, whose scattering function returns a negative value with a correctly rounded square root, and rounding may also make the half-vector cosine of a rough surface negative."
  },
  {
   "property": "C68",
   "status": "proved",
   "theorems": [
    "PT.c68_roulette",
    "PT.c68_roulette_f32",
    "PT.c68_black_f32"
   ],
   "note": "c68_roulette: exact arithmetic; the expectation is the Lebesgue integral over the roulette variable in [0,1]. c68_roulette_f32: single precision; the expectation is the average over the 2^24 values that the random generator delivers. c68_black_f32: with luminance 0 and the value 0 the weight becomes NaN."
  },
  {
   "property": "C69",
   "status": "partial",
   "theorems": [
    "PT.c69_area_pdf_partial",
    "PT.c69_area_estimate",
    "PT.c69_not_a_density",
    "PT.c69_refuted"
   ],
   "note": "False of the code: the reported value is one over the area, not converted to solid angle. c69_area_estimate says what is estimated instead: the surface integral."
  },
  {
   "property": "C70",
   "status": "proved",
   "theorems": [
    "PT.c70_next_up",
    "PT.c70_next_down",
    "PT.c70_fixed",
    "PT.c70_inverse"
   ],
   "note": ""
  },
  {
   "property": "C71",
   "status": "proved",
   "theorems": [
    "PT.c71_clamp",
    "PT.lerp_runs",
    "PT.spectrum_lerp_runs",
    "PT.c71_lerp_f32"
   ],
   "note": "clamp on every float format; lerp in exact arithmetic, and in single precision with its rounding error (c71_lerp_f32)."
  },
  {
   "property": "C72",
   "status": "proved",
   "theorems": [
    "PT.c72_quadratic",
    "PT.c72_degenerate"
   ],
   "note": ""
  },
  {
   "property": "C73",
   "status": "proved",
   "theorems": [
    "PT.c73_checkerboard",
    "PT.c73_checkerboard3D",
    "PT.c73_alternates",
    "PT.c73_alternates3D",
    "PT.c73_on_triangle",
    "PT.c73_on_sphere",
    "PT.c73_in_space"
   ],
   "note": ""
  },
  {
   "property": "C74",
   "status": "partial",
   "theorems": [
    "PT.c74_sphere_frame",
    "PT.c74_triangle_frame",
    "PT.c74_zero_normal_refuted",
    "PT.c74_pole_refuted"
   ],
   "note": "False of the code when the interpolated vertex normal is zero and at the two poles of every sphere, where the tangent is zero and all sampled directions become NaN (both refutations proved); proved for the other cases."
  },
  {
   "property": "C75",
   "status": "partial",
   "theorems": [
    "PT.c75_shadow_ray_partial",
    "PT.c75_shadow_ray_refuted"
   ],
   "note": "False of the code for occluders in the last 0.0001 of the scene diagonal (refutation proved with a scene of two triangles); proved for the rest."
  },
  {
   "property": "C76",
   "status": "proved",
   "theorems": [
    "PT.c76_radiance",
    "PT.c76_render",
    "PT.c76_triangle_panics_iff",
    "PT.c76_library_radiance",
    "PT.c76_library_f32",
    "PT.c76_library_f32_random",
    "PT.c76_spheres_f32",
    "PT.c76_library_real",
    "PT.c76_sphere_lights_panic",
    "PT.c76_overflow_refuted",
    "PT.c76_matt_radiance",
    "PT.c76_matt_f32",
    "PT.c76_camera_steady",
    "PT.c76_matt_render",
    "PT.c76_matt_random"
   ],
   "note": "c76_render is generic; c76_library_f32 is single precision with abstract sqrt, sin, ... and has the exception as its hypothesis; c76_spheres_f32 (no triangles) and c76_library_real (exact arithmetic) have none. c76_overflow_refuted: a scene of finite size (2^70) where the exception is reached and every sample panics. c76_matt_render: single precision without the exception, for scenes of matt triangles and matt spheres of moderate size with distant and area lights and a perspective camera; sqrt only has to be right within a factor. I/O errors other than failing to open the output are outside the model."
  },
  {
   "property": "C77",
   "status": "proved",
   "theorems": [
    "PT.c77_halton_stream",
    "PT.c77_bases_distinct"
   ],
   "note": ""
  },
  {
   "property": "C78",
   "status": "proved",
   "theorems": [
    "PT.c78_expected_radiance",
    "PT.c78_triangle_world"
   ],
   "note": "Exact arithmetic, Lebesgue integrals in [0, infinity]. c78_triangle_world instantiates the contract to every scene of library triangles, materials and lights in either container. What a light or a material answers when sampled appears in the recursion as it is (C55-C64, C69 say how it relates to physics)."
  },
  {
   "property": "C79",
   "status": "proved",
   "theorems": [
    "PT.c79_point_inside",
    "PT.c79_overlaps",
    "PT.c79_surface_area",
    "PT.c79_max_extent",
    "PT.c79_bounding_sphere"
   ],
   "note": "pointInside and overlaps for any rounding arithmetic (F32 included); surface area, longest axis and bounding sphere in exact arithmetic."
  },
  {
   "property": "C80",
   "status": "proved",
   "theorems": [
    "PT.c80_translate",
    "PT.c80_scale",
    "PT.c80_rotate_x",
    "PT.c80_rotate_y",
    "PT.c80_rotate_z",
    "PT.c80_perspective",
    "PT.c80_perspective_depth",
    "PT.c80_look_at"
   ],
   "note": "Exact arithmetic. Rotations are compared with Rodrigues' formula."
  },
  {
   "property": "C81",
   "status": "proved",
   "theorems": [
    "PT.c81_disk",
    "PT.c81_cosine_hemisphere",
    "PT.c81_diffuse"
   ],
   "note": "Exact arithmetic; means are Lebesgue integrals over sample values uniform in [0, 1); the hemisphere integral is in spherical coordinates."
  },
  {
   "property": "C82",
   "status": "proved",
   "theorems": [
    "PT.c82_distribution",
    "PT.c82_masking",
    "PT.c82_matte",
    "PT.c82_plastic",
    "PT.c82_metal",
    "PT.c82_opaque",
    "PT.c82_mirror",
    "PT.c82_smooth_metal",
    "PT.c82_smooth_plastic",
    "PT.c82_glass_reflects",
    "PT.c82_glass_transmits",
    "PT.c82_rough_glass_reflects",
    "PT.c82_rough_glass_transmits"
   ],
   "note": "Exact arithmetic. Rough materials: both roughnesses positive, directions on the same side of the geometric and of the shading normal (transmission: on opposite sides of both). Which Fresnel reflectance plastic and rough glass use is stated as it is in the code; C83 says where that is wrong. Smooth plastic is covered without a diffuse part."
  },
  {
   "property": "C83",
   "status": "partial",
   "theorems": [
    "PT.c83_rough_glass_partial",
    "PT.c82_glass_reflects",
    "PT.c83_rough_glass_inside_too_dim",
    "PT.c83_plastic_too_bright",
    "PT.c82_smooth_plastic"
   ],
   "note": "Holds for smooth glass from both sides and for rough glass from the air. False otherwise: plastic uses the reflectance for light inside the material (indices swapped), so it reflects everything beyond 42 degrees and is too bright; rough glass seen from inside uses the reflectance for light from the air, so it never reflects totally and is too dim."
  },
  {
   "property": "C84",
   "status": "partial",
   "theorems": [
    "PT.c84_triangle",
    "PT.c84_sphere_partial",
    "PT.c84_sphere_refuted"
   ],
   "note": "Single precision with rounding to nearest. Proved for all triangles (no condition on the ray) and for spheres in the coordinates where the centre is 0. False for other spheres: the bound is computed before the point is moved to the sphere's place, and does not cover that rounding (refutation with a unit sphere 2^24 from the origin: the reported point is the centre); c84_sphere_partial bounds the error there, too. The square root is assumed accurate to 1.001 half units in the last place (an instance is constructed); the squared distance of the hit from the centre is assumed at least 2^-100 and finite."
  },
  {
   "property": "C85",
   "status": "partial",
   "theorems": [
    "PT.c85_mirror_partial",
    "PT.c85_no_lamp_partial",
    "PT.c85_mirror_refuted"
   ],
   "note": "Exact arithmetic. c85_mirror_partial says exactly what the mean radiance at a mirror is, for every scene; it is the claimed value if no lamp is the first thing seen along the mirror direction (c85_no_lamp_partial). False for lamps seen in a mirror: the direct-light estimate follows the mirror direction and adds the lamp's emission, and the next step of the path adds it again, so lamps appear twice as bright (c85_mirror_refuted, for every mirror colour and lamp in a concrete scene)."
  },
  {
   "property": "C86",
   "status": "partial",
   "theorems": [
    "PT.c86_triangle_partial",
    "PT.c86_vertex_normals_refuted",
    "PT.c86_sphere_partial",
    "PT.c86_sphere_refuted"
   ],
   "note": "Proved for triangles without vertex normals. False for spheres: the coordinates are angles in radians, but the tangents are the derivatives by the angles as fractions of 2 pi and pi (c86_sphere_partial), so the first is 2 pi times too long at every hit (c86_sphere_refuted). False for triangles with vertex normals: at every hit the first tangent points to the side opposite to the motion (or is perpendicular to it), because the cross products are taken in the wrong order (c86_vertex_normals_refuted)."
  },
  {
   "property": "C87",
   "status": "partial",
   "theorems": [
    "PT.c87_spread_partial",
    "PT.c87_overflow_refuted"
   ],
   "note": "Proved in exact arithmetic as long as the indices have no more digits than the largest power of the prime below 2^32 (for the position on the film: at least the first 69000 samples of every pixel) and the parts are not finer than the cap below 1. False beyond: the power of the base wraps around in 32 bits; in dimension 54 (prime 257), from the 547th sample of a pixel on, at least 249 of any 257 consecutive samples have the same value 1-2^-23, also in 32-bit float arithmetic."
  },
  {
   "property": "C88",
   "status": "proved",
   "theorems": [
    "PT.c88_radiance",
    "PT.c88_film",
    "PT.c88_file",
    "PT.c88_grey_image"
   ],
   "note": "Camera samples and film in any arithmetic, the file in single precision. Textures are arbitrary functions of the hit. The file did not exist before (otherwise its old tail stays, see C10)."
  },
  {
   "property": "C89",
   "status": "proved",
   "theorems": [
    "PT.c89_same_view"
   ],
   "note": "Any arithmetic. The interaction and the address of the shape are compared."
  },
  {
   "property": "C90",
   "status": "proved",
   "theorems": [
    "PT.c90_radiance",
    "PT.c90_image"
   ],
   "note": "Exact arithmetic. c90_radiance for every sampler; c90_image for the Halton sampler (with the random sampler the samples depend on the schedule, see C26)."
  },
  {
   "property": "C91",
   "status": "partial",
   "theorems": [
    "PT.c91_triangle_partial",
    "PT.c91_shared_edge_partial",
    "PT.c91_mesh_partial",
    "PT.c91_sliver_refuted"
   ],
   "note": "Single precision with every rounding error. Proved for triangles that are not slivers (doubled area as seen from the ray at least about 2^-17 of the bounding box, scaled by the relative depth) and whose size and distance neither overflow nor underflow. c91_sliver_refuted: without the double precision fallback, marked TODO in the source, the ray goes through a sliver of ordinary size."
  },
  {
   "property": "C92",
   "status": "proved",
   "theorems": [
    "PT.c92_crash_point"
   ],
   "note": "BufWriter and the file are modelled by their documented behaviour."
  },
  {
   "property": "C93",
   "status": "partial",
   "theorems": [
    "PT.c93_returned_partial",
    "PT.c93_finishes",
    "PT.c93_silent_loss_refuted"
   ],
   "note": "False of the code: errors of the last flush, when the BufWriter is dropped, are ignored; images of at most 600 pixels can be lost completely. Proved: at most the last 8192 bytes can be missing, none if no call failed, and a panic means that a call failed."
  },
  {
   "property": "C94",
   "status": "proved",
   "theorems": [
    "PT.c94_distance",
    "PT.c94_limit",
    "PT.c94_behind",
    "PT.c94_depth"
   ],
   "note": "Single precision with every rounding error. c94_depth relates the distance of a corner as the machine computes it to the exact one."
  },
  {
   "property": "C95",
   "status": "proved",
   "theorems": [
    "PT.c95_front_hides",
    "PT.c95_triangle_beyond"
   ],
   "note": "Single precision, brute-force container. Shapes behind are any shapes that report nothing nearer than a bound and nothing beyond the range of the ray; c95_triangle_beyond shows this of triangles."
  },
  {
   "property": "C96",
   "status": "proved",
   "theorems": [
    "PT.c96_clear_miss"
   ],
   "note": "Single precision with every rounding error."
  },
  {
   "property": "C97",
   "status": "proved",
   "theorems": [
    "PT.c97_tests_crossed",
    "PT.c97_blocked",
    "PT.c97_passes_through",
    "PT.c97_front_hides"
   ],
   "note": "Single precision; rests on rounding being monotone. Crosses is stated with the computed positions of the faces; c97_passes_through derives it from exact geometry, flat boxes included. Shapes are arbitrary, as long as they answer."
  },
  {
   "property": "C98",
   "status": "partial",
   "theorems": [
    "PT.c98_refuted_schedule",
    "PT.c98_every_order",
    "PT.c98_two_tiles_partial",
    "PT.c98_same_file_partial",
    "PT.c98_four_tiles",
    "PT.c98_off_corners",
    "PT.c98_close_partial",
    "PT.c98_written_partial",
    "PT.c98_off_by_one_partial",
    "PT.c98_files_off_by_one_partial",
    "PT.c98_plain_off_by_one_partial"
   ],
   "note": "False of the code: c98_refuted_schedule gives a scene and two complete renders with different files (every order of merging occurs, c98_every_order, and addition rounds). What holds: pixels that at most two tiles reach are identical to the last bit; those are all pixels farther than the filter radius from the corners of tiles; at most four tiles reach a pixel (radius up to 7), and every accumulator is within a factor (1 ± 2^-24)^4 of the exact sum. Hence two renders differ by at most one in every number of the file, if all sums are finite, not negative and of positive weight, and the power function of the math library is monotone and accurate to 2^-20 (c98_files_off_by_one_partial; met by the scene of the refutation, Sched.ordinary13); c98_plain_off_by_one_partial derives that from bounds on the light, the filter weights and the number of samples."
  },
  {
   "property": "C99",
   "status": "proved",
   "theorems": [
    "PT.c99_matt_render",
    "PT.c99_matt_random",
    "PT.c99_hello_f32"
   ],
   "note": "Single precision with an abstract mathematical library (SaneLibm, SaneTan); matt scenes with either sampler, the random one with any generator of numbers in [0, 1). The image is written by one step of the model; I/O errors other than failing to open the output are outside the model. What the pixels show is the subject of the other properties."
  }
 ]
}