c("C01", "proved", "c01_pixel_iteration_exact c01_none_is_final c01_count c01_wrapping",
  "c01_wrapping: the same with every i32 operation wrapping, for every box of i32 corners.")
c("C02", "proved", "c02_tiles_partition c02_wrapping c02_film_region c02_film_region_f32 c02_wraps",
  "c02_wrapping: with every i32 operation wrapping the iterator gives the same tiles, for regions up to 2^31-17 wide and high; the films considered in C04-C06 have such regions (c02_film_region, c02_film_region_f32). At the end of the i32 range the number of tiles wraps (c02_wraps).")
c("C03", "proved", "c03_sample_footprint c03_f32",
  "In exact arithmetic for all films; in single precision for sides up to 4096 and filter radii up to 7 that are multiples of 1/1024, where the footprint is the exact one up to 2^-10 and no pixel of the image is dropped at a tile border.")
c("C04", "proved", "c04_add_sample_never_panics c04_tile_slots c04_film_slots c04_merge_never_panics c04_merge_never_panics_f32 c04_area_wraps",
  "Images with fewer than 2^31 pixels (at 65536x65536 the i32 area is 0 and no pixel has a slot, c04_area_wraps). Merging is proved for exact arithmetic and, with the rounded tile borders, for f32 (radius up to 2^21, sides up to 2^22).")
c("C05", "proved", "c05_film_is_filtered_sum c05_order_independent c05_f32", "The first two in exact arithmetic. c05_f32: single precision, Gaussian filter, images up to 4096 x 4096, radius a multiple of 1/1024 from 1/2 to 7, at most 12500 samples within the radius, light of ordinary size and a valid sample in every pixel; the exponential function of the math library is assumed accurate to 2^-20.")
c("C09", "proved", "c09_ppm_well_formed c09_unambiguous",
  "c09_unambiguous: the text determines the size and every pixel.")
c("C10", "partial", "c10_refuted_black_is_one c10_refuted_black_is_one_f32 c10_channel_partial c10_off_by_at_most_one_partial c10_f32_partial",
  "The claim is false of the code (black is written as 1, the value is scaled and then increased); the refutations and what does hold are proved. In single precision (c10_f32_partial) the channel is at most 1.01 above and 0.01 below 255 times the gamma-corrected colour, if the power function of the math library is accurate to 2^-20.")
c("C11", "proved", "c11_monotone c11_monotone_f32", "In single precision the power function of the math library is assumed to be monotone and at least 0.09 above the switch-over point; infinite sums are included. Demo.fine_monotone and Demo.fine_accurate show a library with both properties.")
c("C12", "partial", "c12_refuted_stale_tail c12_output_partial",
  "False of the code when the file exists and is longer (no truncation); proved for new or not longer files.")
c("C13", "proved", "c13_only_valid_radiance c13_film_never_poisoned")
c("C14", "proved", "c14_gaussian c14_f32 c14_table_f32 c14_outside_f32_partial",
  "c14_gaussian is the property in exact arithmetic. In single precision: c14_f32 (range, symmetry, monotonicity, for any non-decreasing expf with values in [0,1]), c14_table_f32 (the 256 weights of a film are ordinary positive numbers), c14_outside_f32_partial (at most 2^-15 outside the radius, where exact arithmetic has 0).")
c("C15", "proved", "c15_get1d_in_unit c15_get2d_in_unit c15_delivered_iff")
c("C16", "proved", "c16_radical_inverse c16_f32", "c16_radical_inverse: exact arithmetic; c16_f32: single precision, relative error 2^-22 (plus 2^-149).")
c("C17", "proved", "c17_reversal_involutive c17_reversal_digits")
c("C18", "proved", "c18_bezout c18_no_overflow")
c("C19", "partial", "c19_refuted c19_inverse_partial", "False of the code when the Bezout coefficient is negative; proved otherwise.")
c("C20", "partial", "c20_refuted c20_one_axis_partial", "False of the code on one of the two axes; the other axis is proved for all pixels and sample numbers.")
c("C21", "partial", "c21_refuted c21_distinct_partial c21_distinct_tall_partial", "False for regions of at most 81 rows that straddle a multiple of 128; proved for higher ones and, in general, for pixels with different tile cells.")
c("C22", "proved", "c22_halton_sample_count c22_random_sample_count c22_halton_setting")
c("C23", "proved", "c23_history_independent")
c("C25", "partial", "c25_camera_sample_in_pixel c25_camera_sample_f32_partial c25_refuted_f32", "Proved in exact arithmetic; in single precision the half-open claim is false (rounding up to p+1) and the closed one is proved.")
c("C26", "partial", "c26_refuted", "False of the code: all worker threads draw the same sequence.")
c("C06", "proved", "c06_every_tile_once c06_schedule_independent c06_f32_order_matters",
  "Exactly-once and whole merges for every scalar type; equality of the results of different schedules in exact arithmetic with the Halton sampler (in f32 the order of merging shows in the last bits, c06_f32_order_matters; see C98).")
c("C07", "proved", "c07_never_stuck c07_bounded c07_completes",
  "For every scalar type; c07_completes needs the tile buffers inside the image, which tilesFit_real and tilesFit_f32 prove.")
c("C08", "proved", "c08_no_image_after_panic c08_no_other_panic")
c("C46", "proved", "c46_inverse_correct toMat_transpose toMat_mul")
c("C47", "proved", "c47_built_lawful")
c("C48", "proved", "c48_compose c48_compose_point c48_compose_vector c48_compose_normal c48_vector_perspective_differs")
c("C49", "proved", "c49_inverse_undoes c49_inverse_apply_point c49_inverse_apply_vector c49_inverse_apply_normal c49_inverse_undoes_ray c49_inverse_undoes_interaction")
c("C50", "proved", "c50_normals_stay_perpendicular c50_normal_dot c50_interaction")
c("C51", "partial", "c51_refuted c51_transformed_box_partial", "False of the code for rotations (only two corners are transformed); proved for axis-aligned affine maps.")
c("C52", "proved", "c52_generate_ray c52_raster_to_screen c52_corners c52_lookAt c52_camera_ray c52_left_handed c52_f32",
  "c52_f32 is about single precision, the others are exact. c52_camera_ray is the direction in closed form for a camera placed by look_at; c52_left_handed says which way round the picture is (mirrored for scenes given in right-handed coordinates).")
c("C62", "proved", "c62_power_heuristic c62_counts c62_power_heuristic_f32 c62_range_needed",
  "c62_power_heuristic: exact arithmetic; c62_counts: any numbers of samples, and the weights are as the squares of number times density; c62_power_heuristic_f32: single precision with every rounding error; c62_range_needed: outside the range there is no weight (NaN).")
c("C70", "proved", "c70_next_up c70_next_down c70_fixed c70_inverse")
c("C71", "proved", "c71_clamp lerp_runs spectrum_lerp_runs c71_lerp_f32",
  "clamp on every float format; lerp in exact arithmetic, and in single precision with its rounding error (c71_lerp_f32).")
c("C72", "proved", "c72_quadratic c72_degenerate")
c("C73", "proved", "c73_checkerboard c73_checkerboard3D c73_alternates c73_alternates3D c73_on_triangle c73_on_sphere c73_in_space")
c("C53", "proved", "c53_reflect c53_same_side c53_f32 c53_mirror_f32", "c53_reflect, c53_same_side: exact arithmetic; c53_f32: the computed reflection of vectors with coordinates in [-1, 1] is within 2^-18 of the exact one in each coordinate; c53_mirror_f32: the direction a smooth mirror samples is within 2^-15 + 7e of the mirrored one in each coordinate, when normal and tangent are perpendicular up to e")
c("C54", "proved", "c54_refract c54_f32 c54_glass_f32", "c54_refract: exact arithmetic; c54_f32: in single precision the decision is right unless the exact squared sine is within 2^-13 of 1, and a direction is that of Snell's law up to 2^-13 over its cosine (ratios of indices up to 4, any square root right within 1.001 half units); c54_glass_f32: so is the direction that smooth glass samples, and it is strictly on the other side.")
c("C55", "proved", "c55_dielectric_range c55_dielectric_total c55_dielectric_value c55_dielectric_reversible c55_conductor_range c55_conductor_denominators c55_conductor_value c55_conductor_without_absorption c55_f32",
  "Exact arithmetic; c55_f32 is about the dielectric in single precision. c67_metal_negative (C67) shows that the conductor can fall below zero there.")
c("C56", "proved", "c56_glass_energy")
c("C57", "proved", "c57_lambertian_sample c57_f32", "Exact arithmetic, and single precision with error bounds (c57_f32).")
c("C58", "proved", "c58_lambertian c58_microfacet c58_g_range c58_fresnel_models")
c("C59", "partial", "c59_density_partial c59_distribution_partial c59_normalized c59_pdf_is_not_the_density c59_reflected_solid_angle c59_transmitted_solid_angle c59_transmitted_facet", "The change from facet normals to directions is right: the reported pdf is that of the normal times the area the normal sweeps per area the direction sweeps (c59_reflected_solid_angle, c59_transmitted_solid_angle), with that area characterised by derivatives along great circles. But the pdf of the normal is wrong. False of the code: the density is D cos (proved for every pair of roughnesses and both sides, as an equality of integrals of every measurable function), the reported pdf is D / cos; both facts are proved.")
c("C60", "proved", "c60_sample_consistent c60_specular_pick c60_frame c60_material_components c60_materials c60_single_component_mismatch",
  "c60_single_component_mismatch shows why the restriction on a single component is needed.")
c("C61", "proved", "c61_select c61_bsdf_never_panics c61_light c61_light_share c61_share_f32 c61_none_left_out c61_light_each c61_light_each_f32 c61_component_each c61_component_each_f32", "c61_light holds in every arithmetic and for every sampler value; c61_light_share: exact arithmetic; c61_share_f32 and c61_none_left_out: f32, components and lights. These speak of the formulas for the index; c61_light_each and c61_component_each (and their f32 versions) say which light uniform_sample_one_light asks and which component BSDF::sample_f draws from.")
c("C44", "proved", "c44_strictly_off c44_clears_error_box")
c("C45", "proved", "c45_shadow_ray c45_range_f32")
c("C27", "proved", "c27_simple_closest")
c("C28", "proved", "KdTree.c28_build_complete KdTree.c28_build_total KdTree.c28_build_total_real")
c("C29", "partial", "c29_kdtree_closest_partial c29_same_as_simple_partial c29_scene_partial c29_refuted", "False of the code for rays lying exactly in a face plane; proved for all others in arithmetic without rounding.")
c("C30", "proved", "c30_simple KdTree.c30_kdtree")
c("C31", "proved", "KdTree.c31_traversal_terminates")
c("C32", "proved", "KdTree.c32_greedy KdTree.c32_surface_area", "c32_greedy: any arithmetic, in terms of the code's own cost; c32_surface_area: exact arithmetic, against a separate statement of the surface area heuristic (surfaces of the two parts, number of shapes that reach into them, longest axis first).")
c("C33", "proved", "c33_new c33_union c33_union_point c33_bbox_of_shapes")
c("C34", "partial", "c34_no_false_negatives_partial c34_f32_partial c34_refuted", "False of the code when a direction component is -0.0 and the origin is on a face; proved otherwise, in arithmetic without rounding and in single precision (parameter zero or between 2^-100 and 2^120, t_max not within rounding error of it).")
c("C35", "proved", "c35_box_test")
c("C36", "proved", "c36_sphere_hit_real c36_sphere_hit_extended")
c("C37", "proved", "c37_sphere_complete c37_sphere_complete_extended")
c("C38", "proved", "c38_triangle_hit_real c38_triangle_hit_extended")
c("C39", "proved", "c39_triangle_complete c39_triangle_complete_extended")
c("C40", "proved", "c40_triangle c40_triangle_agrees c40_sphere c40_area_light")
c("C41", "partial", "c41_sphere c41_sphere_f32 c41_triangle_exact c41_triangle_partial c41_triangle_range_refuted c41_triangle_overflow_refuted", "Proved in full for spheres (any rounding) and for triangles without rounding; with rounding a triangle can report a distance above the limit or NaN (refutations proved), the other parts still hold.")
c("C42", "proved", "c42_triangle_sample c42_uniform c42_area c42_f32", "Exact arithmetic; c42_f32 bounds the rounding error of the point in single precision. c42_uniform: the mean of any function of the sampled point is its surface integral over the area.")
c("C43", "proved", "c43_mesh")
c("C74", "partial", "c74_sphere_frame c74_triangle_frame c74_zero_normal_refuted c74_pole_refuted", "False of the code when the interpolated vertex normal is zero and at the two poles of every sphere, where the tangent is zero and all sampled directions become NaN (both refutations proved); proved for the other cases.")
c("C24", "proved", "c24_dimensions c24_enough_bases c24_halton_never_exhausted c24_bases")
c("C66", "proved", "c66_path_terminates c66_bounds_reached")
c("C63", "partial", "c63_one_sided c63_sample_matches_hit c63_vertex_normals_refuted", "One-sidedness proved; agreement of sampling and hitting proved for triangles without vertex normals, and refuted for triangles whose vertex normals point to the other side (sampling ignores them).")
c("C64", "proved", "c64_distant_reaches")
c("C65", "proved", "c65_construct c65_panics_simple c65_panics_kdtree c65_box")
c("C69", "partial", "c69_area_pdf_partial c69_area_estimate c69_not_a_density c69_refuted", "False of the code: the reported value is one over the area, not converted to solid angle. c69_area_estimate says what is estimated instead: the surface integral.")
c("C75", "partial", "c75_shadow_ray_partial c75_shadow_ray_refuted", "False of the code for occluders in the last 0.0001 of the scene diagonal (refutation proved with a scene of two triangles); proved for the rest.")
c("C67", "proved", "c67_radiance c67_real_rule c67_float_rule triangle_scene_contract c67_triangle_scene c67_triangle_world c67_f32 c67_metal_negative",
  "c67_radiance is the property for any arithmetic and any notion of non-negative that it respects; c67_real_rule and c67_float_rule give the two notions (reals >= 0; floats that are NaN or have no minus sign). triangle_scene_contract shows that scenes of triangles with any of the library's materials and lights keep the contract (exact arithmetic, either container, any history of builder calls); in exact arithmetic spheres are covered only through the contract. c67_f32: single precision, scenes of spheres and triangles with matt, mirror, smooth plastic and smooth glass surfaces, any history of builder calls, either container, any camera and sampler; every channel is NaN or has no minus sign; of the mathematical library only the signs of pi and of square roots are used. Metal and rough surfaces are left out there: c67_metal_negative shows a smooth metal of index one, seen at 68 degrees, whose scattering function returns a negative value with a correctly rounded square root, and rounding may also make the half-vector cosine of a rough surface negative.")
c("C68", "proved", "c68_roulette c68_roulette_f32 c68_black_f32", "c68_roulette: exact arithmetic; the expectation is the Lebesgue integral over the roulette variable in [0,1]. c68_roulette_f32: single precision; the expectation is the average over the 2^24 values that the random generator delivers. c68_black_f32: with luminance 0 and the value 0 the weight becomes NaN.")
c("C76", "proved", "c76_radiance c76_render c76_triangle_panics_iff c76_library_radiance c76_library_f32 c76_library_f32_random c76_spheres_f32 c76_library_real c76_sphere_lights_panic c76_overflow_refuted c76_matt_radiance c76_matt_f32 c76_camera_steady c76_matt_render c76_matt_random",
  "c76_render is generic; c76_library_f32 is single precision with abstract sqrt, sin, ... and has the exception as its hypothesis; c76_spheres_f32 (no triangles) and c76_library_real (exact arithmetic) have none. c76_overflow_refuted: a scene of finite size (2^70) where the exception is reached and every sample panics. c76_matt_render: single precision without the exception, for scenes of matt triangles and matt spheres of moderate size with distant and area lights and a perspective camera; sqrt only has to be right within a factor. I/O errors other than failing to open the output are outside the model.")
c("C77", "proved", "c77_halton_stream c77_bases_distinct")
c("C78", "proved", "c78_expected_radiance c78_triangle_world",
  "Exact arithmetic, Lebesgue integrals in [0, infinity]. c78_triangle_world instantiates the contract to every scene of library triangles, materials and lights in either container. What a light or a material answers when sampled appears in the recursion as it is (C55-C64, C69 say how it relates to physics).")
c("C79", "proved", "c79_point_inside c79_overlaps c79_surface_area c79_max_extent c79_bounding_sphere",
  "pointInside and overlaps for any rounding arithmetic (F32 included); surface area, longest axis and bounding sphere in exact arithmetic.")
c("C80", "proved", "c80_translate c80_scale c80_rotate_x c80_rotate_y c80_rotate_z c80_perspective c80_perspective_depth c80_look_at",
  "Exact arithmetic. Rotations are compared with Rodrigues' formula.")
c("C81", "proved", "c81_disk c81_cosine_hemisphere c81_diffuse",
  "Exact arithmetic; means are Lebesgue integrals over sample values uniform in [0, 1); the hemisphere integral is in spherical coordinates.")
c("C82", "proved", "c82_distribution c82_masking c82_matte c82_plastic c82_metal c82_opaque c82_mirror c82_smooth_metal c82_smooth_plastic c82_glass_reflects c82_glass_transmits c82_rough_glass_reflects c82_rough_glass_transmits",
  "Exact arithmetic. Rough materials: both roughnesses positive, directions on the same side of the geometric and of the shading normal (transmission: on opposite sides of both). Which Fresnel reflectance plastic and rough glass use is stated as it is in the code; C83 says where that is wrong. Smooth plastic is covered without a diffuse part.")
c("C83", "partial", "c83_rough_glass_partial c82_glass_reflects c83_rough_glass_inside_too_dim c83_plastic_too_bright c82_smooth_plastic",
  "Holds for smooth glass from both sides and for rough glass from the air. False otherwise: plastic uses the reflectance for light inside the material (indices swapped), so it reflects everything beyond 42 degrees and is too bright; rough glass seen from inside uses the reflectance for light from the air, so it never reflects totally and is too dim.")
c("C84", "partial", "c84_triangle c84_sphere_partial c84_sphere_refuted",
  "Single precision with rounding to nearest. Proved for all triangles (no condition on the ray) and for spheres in the coordinates where the centre is 0. False for other spheres: the bound is computed before the point is moved to the sphere's place, and does not cover that rounding (refutation with a unit sphere 2^24 from the origin: the reported point is the centre); c84_sphere_partial bounds the error there, too. The square root is assumed accurate to 1.001 half units in the last place (an instance is constructed); the squared distance of the hit from the centre is assumed at least 2^-100 and finite.")
c("C85", "partial", "c85_mirror_partial c85_no_lamp_partial c85_mirror_refuted",
  "Exact arithmetic. c85_mirror_partial says exactly what the mean radiance at a mirror is, for every scene; it is the claimed value if no lamp is the first thing seen along the mirror direction (c85_no_lamp_partial). False for lamps seen in a mirror: the direct-light estimate follows the mirror direction and adds the lamp's emission, and the next step of the path adds it again, so lamps appear twice as bright (c85_mirror_refuted, for every mirror colour and lamp in a concrete scene).")
c("C86", "partial", "c86_triangle_partial c86_vertex_normals_refuted c86_sphere_partial c86_sphere_refuted",
  "Proved for triangles without vertex normals. False for spheres: the coordinates are angles in radians, but the tangents are the derivatives by the angles as fractions of 2 pi and pi (c86_sphere_partial), so the first is 2 pi times too long at every hit (c86_sphere_refuted). False for triangles with vertex normals: at every hit the first tangent points to the side opposite to the motion (or is perpendicular to it), because the cross products are taken in the wrong order (c86_vertex_normals_refuted).")
c("C87", "partial", "c87_spread_partial c87_overflow_refuted",
  "Proved in exact arithmetic as long as the indices have no more digits than the largest power of the prime below 2^32 (for the position on the film: at least the first 69000 samples of every pixel) and the parts are not finer than the cap below 1. False beyond: the power of the base wraps around in 32 bits; in dimension 54 (prime 257), from the 547th sample of a pixel on, at least 249 of any 257 consecutive samples have the same value 1-2^-23, also in 32-bit float arithmetic.")
c("C88", "proved", "c88_radiance c88_film c88_file c88_grey_image",
  "Camera samples and film in any arithmetic, the file in single precision. Textures are arbitrary functions of the hit. The file did not exist before (otherwise its old tail stays, see C10).")
c("C89", "proved", "c89_same_view",
  "Any arithmetic. The interaction and the address of the shape are compared.")
c("C90", "proved", "c90_radiance c90_image",
  "Exact arithmetic. c90_radiance for every sampler; c90_image for the Halton sampler (with the random sampler the samples depend on the schedule, see C26).")
c("C91", "partial", "c91_triangle_partial c91_shared_edge_partial c91_mesh_partial c91_sliver_refuted",
  "Single precision with every rounding error. Proved for triangles that are not slivers (doubled area as seen from the ray at least about 2^-17 of the bounding box, scaled by the relative depth) and whose size and distance neither overflow nor underflow. c91_sliver_refuted: without the double precision fallback, marked TODO in the source, the ray goes through a sliver of ordinary size.")
c("C92", "proved", "c92_crash_point",
  "BufWriter and the file are modelled by their documented behaviour.")
c("C93", "partial", "c93_returned_partial c93_finishes c93_silent_loss_refuted",
  "False of the code: errors of the last flush, when the BufWriter is dropped, are ignored; images of at most 600 pixels can be lost completely. Proved: at most the last 8192 bytes can be missing, none if no call failed, and a panic means that a call failed.")
c("C94", "proved", "c94_distance c94_limit c94_behind c94_depth",
  "Single precision with every rounding error. c94_depth relates the distance of a corner as the machine computes it to the exact one.")
c("C95", "proved", "c95_front_hides c95_triangle_beyond",
  "Single precision, brute-force container. Shapes behind are any shapes that report nothing nearer than a bound and nothing beyond the range of the ray; c95_triangle_beyond shows this of triangles.")
c("C96", "proved", "c96_clear_miss", "Single precision with every rounding error.")
c("C97", "proved", "c97_tests_crossed c97_blocked c97_passes_through c97_front_hides",
  "Single precision; rests on rounding being monotone. Crosses is stated with the computed positions of the faces; c97_passes_through derives it from exact geometry, flat boxes included. Shapes are arbitrary, as long as they answer.")
c("C98", "partial", "c98_refuted_schedule c98_every_order c98_two_tiles_partial c98_same_file_partial c98_four_tiles c98_off_corners c98_close_partial c98_written_partial c98_off_by_one_partial c98_files_off_by_one_partial c98_plain_off_by_one_partial",
  "False of the code: c98_refuted_schedule gives a scene and two complete renders with different files (every order of merging occurs, c98_every_order, and addition rounds). What holds: pixels that at most two tiles reach are identical to the last bit; those are all pixels farther than the filter radius from the corners of tiles; at most four tiles reach a pixel (radius up to 7), and every accumulator is within a factor (1 ± 2^-24)^4 of the exact sum. Hence two renders differ by at most one in every number of the file, if all sums are finite, not negative and of positive weight, and the power function of the math library is monotone and accurate to 2^-20 (c98_files_off_by_one_partial; met by the scene of the refutation, Sched.ordinary13); c98_plain_off_by_one_partial derives that from bounds on the light, the filter weights and the number of samples.")
c("C99", "proved", "c99_matt_render c99_matt_random c99_hello_f32",
  "Single precision with an abstract mathematical library (SaneLibm, SaneTan); matt scenes with either sampler, the random one with any generator of numbers in [0, 1). The image is written by one step of the model; I/O errors other than failing to open the output are outside the model. What the pixels show is the subject of the other properties.")
c("C100", "partial", "c100_facet_exists c100_facet_passes_partial c100_no_facet_but_light c100_facet_exists_inside c100_facet_passes_inside_partial c100_inside_no_facet_but_light c100_inside_always", "False of the code: c100_no_facet_but_light proves that light passes between directions that no facet bends into each other (the code never checks that they lie on different sides of the facet). Proved: when such a facet exists, and that light passes wherever a facet that faces upwards bends it from air into the glass or (facets that are not vertical) from the glass into air. From inside some light passes for almost every pair of directions on the two sides (c100_inside_always).")
c("C101", "proved", "c101_radiance c101_image c101_radiance_one_by_one c101_image_one_by_one",
  "Exact arithmetic. A scene is a list of pieces without colours (Spec.Fixture) and a colour for each (Spec.furnished); Spec.only lights one lamp. The lamps that are black are still there: light is chosen among all of them. Images: triangles and non-negative colours, so that no sample is thrown away as invalid.")
c("C102", "proved", "c102_image c102_any_sampler",
  "Exact arithmetic. c102_any_sampler says the same of every sampler that counts the samples of a pixel and gives numbers in [0, 1), in particular the random one, except that the numbers a sample is computed from may depend on the schedule. Composes the results on tiles (C02), footprints (C03), films (C05), threads (C06), sample counts (C22), Halton histories (C23) and sample places (C25). The sampled pixels are given as any list without repetitions of the pixels of Spec.Sampled.")
c("C103", "proved", "c103_between c103_uniform c103_covered c103_triangle_world c103_narrow_filter c103_f32",
  "Exact arithmetic, but for c103_f32, which bounds the numbers in the file in single precision under the hypotheses of C119 for a Gaussian filter. c103_triangle_world puts both halves together for scenes of triangles. The reach of half a pixel is needed: c103_narrow_filter shows that with a smaller radius and one sample per pixel the first pixel of every image stays without weight.")
c("C104", "proved", "c104_one_thread c104_one_stream c104_mean_pixel c104_triangle_world c76_library_real_random", "c104_one_thread (any arithmetic, any sampler): a completed render with one thread is the fold of rendering and merging the tiles in turn. c104_one_stream: with the random sampler its pixels are the filtered sums of the samples that one computation draws from the generator. c104_mean_pixel: mean colour and weight for any radiance program that never fails and is non-negative. c104_triangle_world: scenes of triangles, with the light transport recursion of C78 as the mean radiance. c76_library_real_random: such renders never panic and can be completed. With several threads the random sampler is cloned and the streams coincide (C26); the mean is stated for one thread.")
c("C105", "proved", "c105_same_answers c105_scenes c105_same_image",
  "Exact arithmetic with an exact square root for the scenes; the exceptions are spelled out by Spec.Delicate and Spec.SampleTraces (which rays a camera sample asks about).  c105_same_answers holds in any arithmetic. SameImageDemo.lean has a concrete scene of three shapes, two orders and both containers, in which no camera sample of any film asks about a delicate ray.")
c("C106", "proved", "c106_same_sample c106_more_samples c106_only_adds",
  "c106_same_sample holds in any arithmetic; the image sums are exact.")
c("C107", "proved", "c107_triangle c107_shadow_ray c107_sphere",
  "Exact arithmetic, with next_float_up and next_float_down replaced by any operations that do not go inward. Rays that go into a sphere are not covered: they must find its far side.")
c("C108", "proved", "c108_sample c108_numbers c108_image",
  "Exact real arithmetic. c108_sample bounds the luminance of every camera sample by Spec.brightest, c108_numbers evaluates the bound, c108_image carries it to the pixels of every finished render with the Halton sampler and a Gaussian filter.")
c("C109", "proved", "c109_seen_at c109_upright c109_undistorted c109_centre c109_in_picture",
  "Exact real arithmetic. The specification (View.project) is the textbook formula; c109_seen_at says that the rays computed through the matrices agree with it.")
c("C110", "proved", "c110_matt c110_mirror c110_metal c110_glass c110_plastic c110_specular_only_sampled c110_smooth_dark",
  "For every arithmetic, except c110_smooth_dark (exact reals).")
c("C111", "proved", "c111_variance c111_converges c111_matt_world",
  "Exact real arithmetic; the generator is idealised as independent draws, each of the values of a finite list being equally likely (the multiples of 2^-24 in the example). c111_variance holds for every radiance program that never fails and never returns a negative channel. The expected value is the quotient of expected colour and expected weight; that these are the values of the light transport equations is C104 and C78.")
c("C112", "proved", "c112_film c112_file c112_no_lamps c112_background c112_background_pixel c112_lamp c112_lamp_pixel",
  "c112_film, c112_background: every arithmetic. c112_file, c112_no_lamps: IEEE single precision; black is written as 1 (C10), so the bound is 1, and a NaN pixel is written as 0; the math library is only assumed to map NaN to NaN under powf. c112_background_pixel, c112_lamp, c112_lamp_pixel: exact arithmetic, the pixel statements for the Halton sampler.")
c("C113", "proved", "c113_sample c113_triangle c113_sphere c113_pixel",
  "Exact arithmetic. Worlds of one object are in the simple container. The next-representable functions are only assumed not to move inward. Assumed: the shadow ray has a direction, that is, the pushed-off start is not exactly the end point; for the sphere that the ray does not graze it exactly. c113_pixel: Halton sampler.")
c("C114", "proved", "c114_unmet c114_collapsed c114_collapsed_image c114_passed c114_passed_image c114_flat c114_flat_image",
  "Halton sampler. A shape that enlarges the scene box can move the end of the shadow rays of distant lights, so the box must stay the same or there must be no distant light. In single precision a ray without direction or coordinates near the overflow can make a collapsed triangle report NaN, so coordinates are at most 2^20 and the direction is not zero. Exact arithmetic, either container: no traced ray is delicate in the sense of C105 (starts on the face of a box, or meets two shapes at the same distance).")
c("C115", "proved", "c115_glass c115_glass_lamps c115_metal c115_straight c115_plate",
  "incoming is the mean radiance of C78 (the mean of the camera samples of scenes of the library). Glass with both colours not black. c115_glass_lamps states what the code computes when lamps are seen directly: their emission is counted once more, the defect of C85.")
c("C116", "proved", "c116_one_point c116_same_ray c116_resolution c116_crop c116_zoom c116_indifferent",
  "Exact arithmetic. c116_indifferent: the computation of every camera sample, and so of every tile, is the same.")
c("C117", "proved", "c117_sample c117_incoming c117_triangle",
  "Exact arithmetic. c117_incoming is about the light transport recursion, which C78 identifies with the mean of the samples; c117_triangle states the mean itself. Assumed in c117_triangle: no shadow ray has length zero; the next-representable functions do not move inward; the simple container.")
c("C118", "proved", "c118_nothing_in_front c118_convex c118_pixel c118_mean_pixel",
  "Exact arithmetic. The builder adds the triangles, then the lamps. Assumed: no shadow ray has length zero; the next-representable functions do not move inward; in c118_convex the corners of each face are ordered so that its plane normal points outward, and the camera is in front of the face it sees. c118_pixel: the Halton sampler, any filter that is nowhere negative, any number of threads; c118_mean_pixel: the random sampler, the Gaussian filter, one thread.")
c("C119", "proved", "c119_number c119_file c119_all_samples c119_few c119_gaussian",
  "c119_gaussian is the statement for renders as they are made (Gaussian filter, radius a multiple of 1/1024, up to 4096 pixels on a side, 500 samples per pixel at radius 2): there the samples that count are all valid samples of the film whose footprint contains the pixel, and no condition on the number of samples or the filter table is left. Single precision from the camera sample to the file. The light of a sample is whatever the radiance computation returns, and which samples count for a pixel, and with which entry of the filter table, is as the code computes it in single precision. PowfAccurate and PowfMonotone are assumptions on the platform's powf.")
c("C120", "proved", "c120_normalize c120_products c120_system c120_range_needed",
  "Single precision. AccurateSqrt is an assumption on the platform's square root (IEEE 754 demands more).")
c("C121", "proved", "c121_vector c121_normal c121_point c121_translate_back c121_back_not_exact",
  "Single precision. C47-C49 hold these laws exactly in real arithmetic; the code's comparison of the weight with one is shown to succeed for every matrix with last row 0 0 0 1.")
c("C122", "proved", "c122_axes c122_round_trip c122_plain_triangle c122_smooth_triangle c122_parallel_triangle c122_sphere",
  "Single precision. That frames are orthonormal in exact arithmetic, and where the code fails to give one, is C74. The perpendicularity of normal and tangent is an assumption on the shading point, with its error e carried through; c122_plain_triangle derives it, with e = 2^-16, for every hit on a triangle without vertex normals, c122_smooth_triangle, with e = 2^-19, for every hit on a triangle with vertex normals whose interpolated normal is not close to the tangent (c122_parallel_triangle: or so close to it that the code makes up another tangent), c122_sphere, with e = 2^-20, for every hit on a sphere away from its poles.")

