{
 "claims": [
  {
   "property": "C01",
   "status": "proved",
   "theorems": [
    "Feign.Pool.tiles_partition_image",
    "Feign.Pool.tiles_count",
    "Feign.Pool.tiles_nonpositive_width_diverges",
    "Feign.Pool.tiles_second_call_appends"
   ],
   "note": "Every image size and positive tile width; a non-positive width is shown to diverge."
  },
  {
   "property": "C02",
   "status": "partial",
   "theorems": [
    "Feign.Pool.scheduler_every_tile_once_partial",
    "Feign.Pool.scheduler_terminates_partial",
    "Feign.Pool.scheduler_correct_refuted",
    "Feign.Pool.scheduler_correct_iff",
    "Feign.Pool.scheduler_more_threads_than_tiles_ub",
    "Feign.Pool.scheduler_zero_threads_diverges"
   ],
   "note": "Holds when there are at least as many tiles as threads and at least one thread; popping from the empty list is undefined behaviour otherwise, which refutes the unrestricted claim."
  },
  {
   "property": "C03",
   "status": "proved",
   "theorems": [
    "Feign.Image.render_in_bounds",
    "Feign.Image.renderTiles_in_bounds",
    "Feign.Image.inexact_width_out_of_bounds",
    "Feign.Image.render_single_in_bounds",
    "Feign.Image.wide_image_refuted"
   ],
   "note": "Any rounding that represents the last row and column index exactly; the hypothesis is shown to be needed.  In single precision it holds up to 2^24 rows and columns and fails for 2^24+4 columns."
  },
  {
   "property": "C04",
   "status": "proved",
   "theorems": [
    "Feign.Image.parallel_eq_sequential",
    "Feign.Pool.interleaving_independent",
    "Feign.Pool.update_order_irrelevant",
    "Feign.Pool.mutual_exclusion",
    "Feign.Pool.no_deadlock",
    "Feign.Pool.steps_decrease",
    "Feign.Image.renderTiles_eq_render",
    "Feign.Image.renderTiles_keeps_old_contents"
   ],
   "note": "Every interleaving of single reads and writes under the per-pixel mutexes; exact arithmetic."
  },
  {
   "property": "C05",
   "status": "proved",
   "theorems": [
    "Feign.Image.render_pixel_eq",
    "Feign.Image.render_pixel_between",
    "Feign.Image.render_constant",
    "Feign.Image.default_filter_no_holes",
    "Feign.Image.box_filter_hole",
    "Feign.Image.render_nonneg",
    "Feign.Image.render_single_nonneg"
   ],
   "note": "Exact arithmetic for the weighted mean; non-negativity also under any monotone rounding."
  },
  {
   "property": "C06",
   "status": "partial",
   "theorems": [
    "Feign.Sampling.area_table_correct",
    "Feign.Sampling.area_selection_always_first",
    "Feign.Sampling.area_selection_eq",
    "Feign.Sampling.selects_by_area_iff",
    "Feign.Sampling.selects_by_area_refuted",
    "Feign.Sampling.selects_by_area_partial",
    "Feign.Sampling.area_selection_degenerate_first"
   ],
   "note": "Table, probabilities and search position are correct; the selected triangle is refuted: every number in [0,1] selects triangle 0, so selection is right exactly when triangle 0 carries the interval."
  },
  {
   "property": "C07",
   "status": "partial",
   "theorems": [
    "Feign.Sampling.overloads_agree",
    "Feign.Sampling.index_is_table_entry_refuted",
    "Feign.Sampling.search_position_partial",
    "Feign.Sampling.reuse_agree"
   ],
   "note": "The forms agree with each other for every input, but the agreed index is the truncated cumulative value rather than the table position (refuted with a witness); the internal search position is right."
  },
  {
   "property": "C08",
   "status": "partial",
   "theorems": [
    "Feign.Sampling.reuse_in_range_refuted",
    "Feign.Sampling.reuse_in_range_partial"
   ],
   "note": "Refuted: the reused number can exceed 1. Partial: in range exactly for numbers in the first interval; order preserved."
  },
  {
   "property": "C09",
   "status": "proved",
   "theorems": [
    "Feign.Sampling.naive_selection",
    "Feign.Sampling.naive_selection_measure",
    "Feign.Sampling.choose_emitter_correct",
    "Feign.Sampling.choose_emitter_any",
    "Feign.Sampling.naive_selection_rounded",
    "Feign.Image.naive_selection_single"
   ],
   "note": "Uniform selection for every number of lights and every number in [0,1), incl. Lebesgue measure of the selecting set and the scene-level choice; also under monotone rounding of the product."
  },
  {
   "property": "C10",
   "status": "partial",
   "theorems": [
    "Feign.Sampling.spatial_uses_containing_cell_refuted",
    "Feign.Sampling.spatial_single_cell_partial",
    "Feign.Sampling.used_cell_is_zero",
    "Feign.Sampling.spatial_always_first",
    "Feign.Sampling.cell_table_correct",
    "Feign.Sampling.cells_cover_scene_refuted",
    "Feign.Sampling.cells_cover_cube",
    "Feign.Sampling.cellIndex_injective",
    "Feign.Sampling.cell_weight_law"
   ],
   "note": "Refuted: every point uses the cell at the grid origin and every number selects light 0; cells do not cover the scene. Partial: tables are right for every cell, a one-cell grid uses its cell."
  },
  {
   "property": "C100",
   "status": "proved",
   "theorems": [
    "Feign.Integrators.path_mean",
    "Feign.Integrators.path_mean_grey",
    "Feign.Integrators.rendering_equation",
    "Feign.Integrators.path_mean_limit",
    "Feign.Integrators.diffuse_light",
    "Feign.Integrators.mirror_light",
    "Feign.Integrators.glass_light",
    "Feign.Integrators.lamps_direct",
    "Feign.Integrators.lamps_light"
   ],
   "note": "path_mean: mean of Li between carried light and carried minus 1e-4 times a bound on it; path_mean_grey: exact without the cut-off; rendering_equation and path_mean_limit: limit over bounce counts; diffuse_light, mirror_light, glass_light: the reflected term for each material. Exact arithmetic; random numbers independent and uniform on (0,1); what rays hit, emission and light samples are measurable functions given from outside (their own means are C83/C84); simple material shader, no media, no null material; glass hits with wi.z in [-Epsilon, 0] excluded (refuted there, C41).  lamps_direct, lamps_light: with point lights (Integrators/Lit, through eval_one_emitter) the direct term is the sum over the lamps of colour/pi times cosine times intensity/(4 pi d^2); a lamp exactly at the hit point is excluded (NaN in the program)."
  },
  {
   "property": "C101",
   "status": "proved",
   "theorems": [
    "Feign.Image.render_converges",
    "Feign.Image.default_filter_converges",
    "Feign.Image.box_filter_converges",
    "Feign.Integrators.path_image",
    "Feign.Integrators.path_image_grey",
    "Feign.Integrators.vol_image",
    "Feign.Integrators.vol_image_bright",
    "Feign.Integrators.fog_image",
    "Feign.Integrators.milk_image"
   ],
   "note": "render_converges: any measurable bounded filter, pixels that the filter reaches; default_filter_converges and box_filter_converges: the two filters of the code reach every pixel; path_image, path_image_grey: the program that traces (radiance of World.Li, stream where the loop stopped drawing) meets the assumptions, so the limit is the filtered carried light of C100. Exact arithmetic, no rounding of the accumulation; random numbers independent and uniform on (0,1) instead of pcg32; camera a measurable function; serial render loop (the tiled one computes the same image, C05).  vol_image, vol_image_bright, fog_image: the same for the volumetric integrator and the light of C105 (matte surfaces, loop that ends for every stream); milk_image: an image through a medium that is known in closed form."
  },
  {
   "property": "C102",
   "status": "partial",
   "theorems": [
    "Feign.Image.box_mean_partial",
    "Feign.Image.one_sample_mean",
    "Feign.Image.mean_refuted"
   ],
   "note": "box_mean_partial: true for the box filter of one pixel (BoxFilter's default), every sample count. mean_refuted: false for the filter every scene gets (Gauss): pixels are divided by a random total weight; one_sample_mean: with one pixel and one sample the filter has no effect at all on the mean. In the limit of many samples it holds, C101. Exact arithmetic, independent uniform numbers."
  },
  {
   "property": "C103",
   "status": "proved",
   "theorems": [
    "Feign.Integrators.ambient_mean",
    "Feign.Integrators.ambient_image"
   ],
   "note": "Mean over the sampler and limit of the image for the default filter; hemisphere around the geometric normal, whichever side the camera is on. Random numbers independent and uniform, exact real arithmetic; frames orthonormal by hypothesis, which C22 proves of frames built around unit normals. Example: below a lid with a round hole every pixel tends to 1/4."
  },
  {
   "property": "C104",
   "status": "partial",
   "theorems": [
    "Feign.Integrators.whitted_depth",
    "Feign.Integrators.whitted_ends",
    "Feign.Integrators.whitted_mean_shown",
    "Feign.Integrators.whitted_mean_partial",
    "Feign.Integrators.whitted_mean_refuted",
    "Feign.Integrators.whitted_image_shown",
    "Feign.Integrators.whitted_image_partial",
    "Feign.Integrators.whitted_traces",
    "Feign.Integrators.whitted_image_refuted"
   ],
   "note": "Termination with probability one and the bound 0.95^n on the depth are proved in full. The mean is exactly right when surfaces do not emit and specular surfaces reflect nothing or at least 1e-4 (whitted_mean_partial); whitted_mean_shown says what it is otherwise: emission counts twice at non-specular surfaces and 19/20 at specular ones. The full property is false of the code (whitted_mean_refuted): doubled emission, emission lost when the path is ended, and dark mirrors under a bright sky taken for black.  Images (whitted_image_shown, whitted_image_partial, whitted_image_refuted): every pixel tends to that light, filtered; the program is any measurable one that gives what the recursion gives when it ends and leaves the stream where the recursion stopped drawing."
  },
  {
   "property": "C105",
   "status": "partial",
   "theorems": [
    "Feign.Integrators.vol_mean_le",
    "Feign.Integrators.vol_mean_ge",
    "Feign.Integrators.vol_mean_bright",
    "Feign.Integrators.renders_of_solid",
    "Feign.Integrators.renders_of_few",
    "Feign.Integrators.light_step",
    "Feign.Integrators.light_escape",
    "Feign.Integrators.radiance_step",
    "Feign.Integrators.radiance_escape",
    "Feign.Integrators.vol_mean_tendsto",
    "Feign.Integrators.veiled_scatter",
    "Feign.Integrators.veiled_absorb",
    "Feign.Integrators.haze_fog",
    "Feign.Integrators.sheen_fog",
    "Feign.Integrators.fog_transfer_partial",
    "Feign.Integrators.fog_radiance_partial",
    "Feign.Integrators.fog_vacuum",
    "Feign.Integrators.fog_image_mean",
    "Feign.Integrators.fog_bounded",
    "Feign.Integrators.fog_image_bounded",
    "Feign.Integrators.fog_transfer_refuted",
    "Feign.Integrators.fog_colour_refuted"
   ],
   "note": "The mean is the light of paths with at most maxBounces vertices: upper bound always, lower bound up to 1e-4 L, exact if nothing is given up; limit for growing maxBounces; no light is made. The equation of radiative transfer holds for media that only absorb and for media with a grey density and coefficients that add up to one in every channel; otherwise the code violates it (analytic.cpp:25 multiplies by sigma_t a second time, and max() is the smallest channel): fog_transfer_refuted, fog_colour_refuted. The Mist theorems hold for any sampler of distances and phase function given from outside. Surfaces are diffuse under the simple shader and do not emit; exact arithmetic; random numbers are independent and uniform."
  },
  {
   "property": "C106",
   "status": "proved",
   "theorems": [
    "Feign.Camera.persp_measurable",
    "Feign.Camera.lens_light",
    "Feign.Camera.disk_area",
    "Feign.Camera.in_focus",
    "Feign.Camera.lensRay_line",
    "Feign.Camera.pinhole_light",
    "Feign.Camera.lens_image",
    "Feign.Camera.lens_path_image",
    "Feign.Camera.horizon_image"
   ],
   "note": "Exact real arithmetic, independent uniform random numbers. lens_image: every integrator that is measurable, leaves the sampler in order, returns nothing negative and has bounded means (the path, volumetric, ambient occlusion and Whitted integrators are shown to be such under C101, C103 and C104); lens_path_image: the path integrator; horizon_image: an explicit scene whose rows are known, for every field of view and film size."
  },
  {
   "property": "C107",
   "status": "partial",
   "theorems": [
    "Feign.Camera.range_is_depth_partial",
    "Feign.Camera.range_is_depth_refuted",
    "Feign.Camera.lens_range"
   ],
   "note": "range_is_depth_partial: holds with aperture 0. Refuted with an open aperture: the limits are computed from the direction through the eye (d) but used along the direction through the lens point (od), perspective.cpp:65, 77-78; lens_range gives the depths actually seen."
  },
  {
   "property": "C108",
   "status": "partial",
   "theorems": [
    "Feign.Tools.Site.rows_closed",
    "Feign.Tools.Site.home_page",
    "Feign.Tools.Site.results_site_partial",
    "Feign.Tools.Site.home_test_refuted",
    "Feign.Tools.Site.pos_error_image_refuted",
    "Feign.Tools.Site.pos_error_image_fixed"
   ],
   "note": "Home page and rows hold for every directory. False of the code: a test called home loses its page, every page shows the positive error image of test_001. Names that end in an ending the runner adds are excluded in the partial theorem."
  },
  {
   "property": "C109",
   "status": "partial",
   "theorems": [
    "Feign.Tools.Site.references_kept_partial",
    "Feign.Tools.Site.references_kept_refuted",
    "Feign.Tools.Site.reference_run_undefined",
    "Feign.Tools.Site.references_then_tests_partial",
    "Feign.Tools.Site.unchanged_passes_partial",
    "Feign.Tools.Site.single_reference_partial",
    "Feign.Tools.Site.single_reference_missing",
    "Feign.Tools.Site.single_reference_refuted"
   ],
   "note": "Holds for names without clashes. False of the code: a test a_ref overwrites the reference of a; replacing all references prints unset numbers; replacing one reference renders the file in the current folder."
  },
  {
   "property": "C11",
   "status": "proved",
   "theorems": [
    "Feign.Api.names_permanent",
    "Feign.Api.find_stable"
   ],
   "note": "Registry model with pointers; holds in every history, also after caught exceptions."
  },
  {
   "property": "C110",
   "status": "partial",
   "theorems": [
    "Feign.Tools.Site.recording_exact",
    "Feign.Tools.Site.graphs_renewed_partial",
    "Feign.Tools.Site.old_graphs_stay_refuted",
    "Feign.Tools.Site.other_folder_deleted_refuted",
    "Feign.Tools.Site.blank_in_name_refuted"
   ],
   "note": "Exact effect proved for names of one word. False of the code: the folder deleted is one in the current folder, old graphs stay, names are not quoted."
  },
  {
   "property": "C111",
   "status": "partial",
   "theorems": [
    "Feign.Bounds.bounds_enclose_partial",
    "Feign.Bounds.bounds_enclose_all",
    "Feign.Bounds.bounds_collapse",
    "Feign.Bounds.bounds_enclose_refuted",
    "Feign.Bounds.bounds_smallest_refuted"
   ],
   "note": "Refuted: a mesh whose object carries no emitter is left out of the bounds, and the origin is always in them. Partial: the bounds hold the origin, every emitting mesh and every distance field, and are the smallest box that does. Without emitting meshes the bounds are a single point."
  },
  {
   "property": "C112",
   "status": "partial",
   "theorems": [
    "Feign.Camera.target_view_partial",
    "Feign.Camera.target_view_iff",
    "Feign.Camera.target_view_refuted",
    "Feign.Camera.target_scaled",
    "Feign.Camera.target_pixel_shape"
   ],
   "note": "Refuted: the film size is changed after the camera was set up, so an image of other proportions than the scene file's gets a stretched picture. Partial: an image of the same proportions shows exactly what a scene file of its size would; for a pinhole camera this is the only case. In general the picture is the scene file's own, scaled to the image."
  },
  {
   "property": "C113",
   "status": "partial",
   "theorems": [
    "Feign.Integrators.normal_view",
    "Feign.Integrators.nice_normal_view",
    "Feign.Integrators.cosine_view_partial",
    "Feign.Integrators.cosine_view_refuted",
    "Feign.Integrators.barycentric_view_partial",
    "Feign.Integrators.barycentric_sdf_refuted",
    "Feign.Integrators.normal_image",
    "Feign.Integrators.nice_normal_image",
    "Feign.Integrators.cosine_image_partial",
    "Feign.Integrators.barycentric_image"
   ],
   "note": "Holds for normal, nice_normal and, on meshes, barycentric. Refuted for cosine_term, which has the opposite sign, and for barycentric on distance functions, which are white all over. near an edge means: closer than a hundredth of the height of the triangle over that edge. Exact arithmetic."
  },
  {
   "property": "C114",
   "status": "partial",
   "theorems": [
    "Feign.Integrators.sandbox_surface_partial",
    "Feign.Integrators.sandbox_medium_partial",
    "Feign.Integrators.sandbox_environment_refuted",
    "Feign.Integrators.sandbox_empty_refuted",
    "Feign.Integrators.sandbox_undefined_refuted",
    "Feign.Integrators.sandbox_second_null"
   ],
   "note": "Holds for surfaces and for null surfaces with a medium inside. Refuted for the environment (always black), for null surfaces with an empty boundary (black) and for null surfaces without a medium inside (a null pointer is followed). What lies behind a second null surface is outside the model, as the integrator does not look there."
  },
  {
   "property": "C115",
   "status": "partial",
   "theorems": [
    "Feign.Sdf.hit_normal_close_partial",
    "Feign.Sdf.hit_normal_flat_partial",
    "Feign.Sdf.hit_normal_sphere",
    "Feign.Sdf.hit_normal_cone",
    "Feign.Sdf.hit_normal_cylinder",
    "Feign.Sdf.hit_normal_cylinder_end",
    "Feign.Sdf.hit_normal_box",
    "Feign.Sdf.hit_normal_plane_value",
    "Feign.Sdf.hit_normal_plane_partial",
    "Feign.Sdf.hit_normal_axis_plane_partial",
    "Feign.Sdf.plane_normal_refuted",
    "Feign.Sdf.tilted_plane_normal_refuted"
   ],
   "note": "Proved for every solid primitive: exact wherever the solid is a half space around the hit (box faces, cylinder ends), within 4/3 tolerance/rho wherever a ball of radius rho touches the surface from inside (spheres, the sides of cylinders and cones). For planes the reported vector is given outright; it is right when no component of the step is cut off by the kink at the plane, and for planes across a coordinate axis at every hit off the plane. Refuted for planes in general: a perpendicular ray lands on the plane and gets the upward direction, and tilted planes get normals off by more than 30 degrees. Missing: edges and corners (no single normal), and hits with another primitive within three tolerances."
  },
  {
   "property": "C116",
   "status": "partial",
   "theorems": [
    "Feign.Bsdf.diffuse_reciprocal",
    "Feign.Bsdf.phong_reciprocal",
    "Feign.Bsdf.blinn_reciprocal_partial",
    "Feign.Bsdf.blinn_reciprocal_refuted",
    "Feign.Bsdf.mirror_reversible",
    "Feign.Bsdf.null_reversible",
    "Feign.Bsdf.glass_reversible_partial",
    "Feign.Bsdf.glass_reversible_refuted",
    "Feign.Bsdf.one_way_reversible_refuted",
    "Feign.Media.phase_reciprocal",
    "Feign.Shapes.mesh_reversible",
    "Feign.Shapes.mesh_blocks_reversible"
   ],
   "note": "Diffuse, Phong, mirror, null, every phase function and mesh visibility proved for all directions; Blinn for directions on the upper side; glass further than Epsilon (squared cosine) from grazing. Refuted: Blinn across the surface, glass near grazing, one-way glass (by design)."
  },
  {
   "property": "C117",
   "status": "partial",
   "theorems": [
    "Feign.Image.spoiled_iff",
    "Feign.Image.unspoiled_unchanged",
    "Feign.Image.spoiled_tiles_iff",
    "Feign.Image.reported_iff",
    "Feign.Image.damage_reported",
    "Feign.Image.weightless_sample_refuted",
    "Feign.Image.weightless_tile_refuted"
   ],
   "note": "Damage and locality are proved for every pixel in terms of the filter's box. The code violates two parts: a sample whose weight at a pixel is zero still damages it (zero times not-a-number is added), and the multi-threaded renderer leaves a pixel without weight not-a-number where the single-threaded one writes black; it also reports nothing. Exact arithmetic for finite numbers (no overflow)."
  },
  {
   "property": "C118",
   "status": "partial",
   "theorems": [
    "Feign.Bsdf.phong_number_iff",
    "Feign.Bsdf.phong_natural",
    "Feign.Bsdf.phong_number_partial",
    "Feign.Bsdf.phong_number_refuted",
    "Feign.Bsdf.phong_sample_number",
    "Feign.Bsdf.phong_sample_natural",
    "Feign.Bsdf.blinn_number_iff",
    "Feign.Bsdf.blinn_natural",
    "Feign.Bsdf.blinn_number_partial",
    "Feign.Bsdf.blinn_number_refuted"
   ],
   "note": "Exactly when the value is a number is proved for both materials. Phong: false for every exponent that is not whole (directions beyond a right angle from the mirror direction, even with a specular share of zero); true within a right angle, and for samples. Blinn: false for opposite directions and for negative exponents; true otherwise. Negative values of Phong with odd exponents are phong_evaluates_negative_refuted (C73). Exact arithmetic, powf as the C standard specifies it."
  },
  {
   "property": "C119",
   "status": "partial",
   "theorems": [
    "Feign.Image.pixel_rounding",
    "Feign.Image.pixel_single",
    "Feign.Image.constant_single",
    "Feign.Image.saturated_refuted"
   ],
   "note": "The error bound holds for every rounding with a given relative error and, for single precision, while fewer than 2^22 samples reach the pixel. More samples need not help: after 2^24 samples of weight one nothing is added any more. The value of the filter is taken as exact, exponents are not limited."
  },
  {
   "property": "C12",
   "status": "proved",
   "theorems": [
    "Feign.Api.redefinition_rejected",
    "Feign.Api.null_bsdf_redeclared"
   ],
   "note": "Every declaring call on a defined name throws and changes no definition. The exception is fr_bsdf with type null, which stores nothing (null_bsdf_redeclared shows the second call then defines the name for the first time)."
  },
  {
   "property": "C120",
   "status": "partial",
   "theorems": [
    "Feign.Photons.traverse_leaf_partial",
    "Feign.Photons.traverse_returns_self",
    "Feign.Photons.octree_lookup_null",
    "Feign.Photons.octree_lookup_refuted",
    "Feign.Photons.traverse_new_undefined",
    "Feign.Photons.overlapping_children",
    "Feign.Photons.split_keeps"
   ],
   "note": "Proved for leaves. For every octree that has been split the lookup answers null, because the answer of a single child is dropped; a node it does return is always the one that was asked. Splitting never makes children."
  },
  {
   "property": "C121",
   "status": "partial",
   "theorems": [
    "Feign.Parser.rendered_iff",
    "Feign.Parser.file_builds",
    "Feign.Parser.run_ends",
    "Feign.Parser.sections_any_order",
    "Feign.Parser.first_misfit",
    "Feign.Parser.assembles_iff",
    "Feign.Parser.default_names_refuted"
   ],
   "note": "Proved: which files reach rendering, the scene they describe, independence of the order of sections, and which of these scenes can be put together. Refuted: default names do not fit together, so a file with every name left out fails. How transforms compose is a parameter here (modelled for C17)."
  },
  {
   "property": "C122",
   "status": "partial",
   "theorems": [
    "Feign.Tools.timing_goes_through_iff",
    "Feign.Tools.time_recorded",
    "Feign.Tools.parts_le",
    "Feign.Tools.render_stages_le",
    "Feign.Tools.total_exact",
    "Feign.Tools.total_iff",
    "Feign.Tools.total_refuted",
    "Feign.Tools.timer_stalls_refuted",
    "Feign.Tools.report_aligned",
    "Feign.Tools.report_of_run",
    "Feign.Tools.report_misaligned_refuted",
    "Feign.Tools.record_handed_over",
    "Feign.Tools.record_dropped_refuted",
    "Feign.Tools.total_le"
   ],
   "note": "Lines and stages proved in exact arithmetic for every history of calls (time_recorded, parts_le, render_stages_le), exact condition for success (timing_goes_through_iff) and for the total (total_exact, total_iff). Refuted: the total counts the calls made while reading the file twice (total_refuted); sums in single precision stop growing (timer_stalls_refuted); rendering to files never fills the caller's record (record_dropped_refuted). One thread; the conversion of one clock difference to float is not rounded."
  },
  {
   "property": "C123",
   "status": "partial",
   "theorems": [
    "Feign.Integrators.path_superposition",
    "Feign.Integrators.whitted_superposition",
    "Feign.Integrators.vol_superposition",
    "Feign.Integrators.path_dark",
    "Feign.Integrators.path_tint",
    "Feign.Integrators.direct_superposition",
    "Feign.Integrators.emission_superposition",
    "Feign.Image.image_superposition",
    "Feign.Image.tiles_superposition",
    "Feign.Image.picture_superposition",
    "Feign.Integrators.room_superposition",
    "Feign.Integrators.traces_exist",
    "Feign.Integrators.separate_lamps_refuted",
    "Feign.Photons.photon_superposition_partial",
    "Feign.Photons.photon_tint_refuted",
    "Feign.Photons.view_superposition",
    "Feign.Photons.nearest_superposition",
    "Feign.Image.image_stops",
    "Feign.Image.tiles_stops",
    "Feign.Image.image_scale_refuted"
   ],
   "note": "Proved in exact arithmetic for radiance of the path, Whitted and volumetric integrators whatever the scene answers, for the light samples of all light kinds, for images with any filter (plain and tiled), and put together for pictures of scenes and rooms with lamps rendered by path tracing. Photon mapping: the stored photons if no channel is black (with a black channel refuted: the photons become not-a-number), and the gathering always. Rendering with lamps removed instead of switched off does not add up sample by sample (separate_lamps_refuted). Rounding: whole stops are exact in single precision for the accumulation of images (image_stops, tiles_stops; no overflow or subnormal numbers), other factors are not (image_scale_refuted). Missing: rounding inside the integrators."
  },
  {
   "property": "C124",
   "status": "partial",
   "theorems": [
    "Feign.Media.file_density",
    "Feign.Media.file_range",
    "Feign.Media.file_voxel",
    "Feign.Media.file_continuous",
    "Feign.Media.file_monotone",
    "Feign.Media.missing_file",
    "Feign.Media.no_density_grid_refuted",
    "Feign.Media.vdb_maximum_refuted",
    "Feign.Media.puff_density"
   ],
   "note": "Proved for files with a float grid called density, over exact arithmetic and with the OpenVDB library modelled by its documentation: weighted mean of eight voxels, range, voxel centres, continuity, monotone in the voxels, other grids ignored, unopenable files throw. Refuted: a file without that grid (or with one of another type) is accepted and then a null pointer is followed; the maximum is read from a member that is never written."
  },
  {
   "property": "C125",
   "status": "partial",
   "theorems": [
    "Feign.Sdf.flat_no_self_shadow",
    "Feign.Sdf.box_no_self_shadow",
    "Feign.Sdf.sphere_no_self_shadow",
    "Feign.Sdf.lone_sphere_lit",
    "Feign.Sdf.curved_no_self_shadow_partial",
    "Feign.Shapes.face_no_self_shadow",
    "Feign.Sdf.wall_dark_refuted",
    "Feign.Shapes.face_behind_shadows_refuted"
   ],
   "note": "Proved: rays that leave to the front of a flat part (box faces), to any side not below the horizon of a sphere of radius at least two tolerances, at least 2 tolerance/radius above the horizon of other curved surfaces, and any ray from its own triangle. False in the code, refuted: a distance-function plane seen head on blocks every ray that leaves it; a mesh face that lies behind the surface can block, because the triangle test accepts the whole parallelogram. Exact arithmetic."
  },
  {
   "property": "C126",
   "status": "partial",
   "theorems": [
    "Feign.Shapes.triangle_moved",
    "Feign.Shapes.mesh_moved",
    "Feign.Shapes.mesh_hit_moved",
    "Feign.Sdf.scene_box_moved",
    "Feign.Sdf.sdf_moved",
    "Feign.Lights.light_moved",
    "Feign.Lights.light_areas_moved",
    "Feign.Lights.direct_light_moved",
    "Feign.Camera.camera_moved",
    "Feign.Camera.camera_moved_degenerate",
    "Feign.Integrators.path_moved",
    "Feign.Integrators.moved_picture",
    "Feign.Sdf.moved_sdf_picture",
    "Feign.far_away_refuted"
   ],
   "note": "Exact arithmetic: proved for triangles, meshes, distance functions, all six lights, the look-at camera, path tracing and the whole picture of scenes of distance functions (diffuse, mirror, glass, point lamps). The mesh version of the whole picture holds for every Room whose hits move along (moved_picture). Partial because the code works in single precision, where a scene far from the origin is not the same scene (far_away_refuted)."
  },
  {
   "property": "C127",
   "status": "partial",
   "theorems": [
    "Feign.Shapes.unmet_faces",
    "Feign.Scene.unmet_objects",
    "Feign.Sdf.unmet_shapes_partial",
    "Feign.Sdf.floor_hides_ball_refuted"
   ],
   "note": "Holds for faces of a mesh and for scenes of meshes (assuming Embree finds a nearest triangle). For distance functions only part holds (same shapes, both within the tolerance, neither behind a surface) and the rest is false in the code: a floor just below a ray uses up the 2000 steps and hides a ball (floor_hides_ball_refuted)."
  },
  {
   "property": "C128",
   "status": "partial",
   "theorems": [
    "Feign.Shapes.mesh_scaled_partial",
    "Feign.Shapes.mesh_hit_scaled",
    "Feign.Shapes.small_unit_refuted",
    "Feign.Sdf.distance_unique",
    "Feign.Sdf.shape_scaled",
    "Feign.Sdf.floor_unit_refuted",
    "Feign.Lights.light_scaled",
    "Feign.Lights.direct_light_scaled",
    "Feign.Lights.light_table_scaled",
    "Feign.Lights.same_power_refuted",
    "Feign.Camera.camera_scaled",
    "Feign.Integrators.path_scaled",
    "Feign.Integrators.scaled_picture"
   ],
   "note": "Shapes, lights of every kind, the table of an area light, the camera with an open lens, paths and pictures are proved to correspond. Partial because the program compares lengths with constants of its own: triangles are met alike only on the same side of the smallest determinant (small_unit_refuted), the search along distance functions has a fixed tolerance (floor_unit_refuted), and path_scaled takes as hypothesis that rays meet corresponding points and that shadow rays, shortened by a fixed length, are blocked alike."
  },
  {
   "property": "C129",
   "status": "partial",
   "theorems": [
    "Feign.Camera.same_proportions",
    "Feign.Camera.taller_picture",
    "Feign.Image.finer_mean_partial",
    "Feign.Camera.finer_view_partial",
    "Feign.Image.finer_gauss_refuted",
    "Feign.Image.finer_gauss"
   ],
   "note": "Rays: all sizes of the same proportions (same_proportions, also for unusable cameras) and all heights (taller_picture). Means: for the box filter of one pixel, every magnification and every number of samples. With the Gaussian filter that scenes get the code violates the statement about means (finer_gauss_refuted: a pixel tends to a value above zero, the four pixels that replace it in a picture twice as fine tend to zero), because the filter reaches two pixels in every picture; finer_gauss says what a finer picture shows instead: the same view through a filter as many times narrower."
  },
  {
   "property": "C13",
   "status": "proved",
   "theorems": [
    "Feign.Api.declarations_any_order",
    "Feign.Api.declarations_permute",
    "Feign.Api.shared_emitter_refuted"
   ],
   "note": "Any permutation of accepted declarations of different names (objects included). Which object carries an emitter named by several objects does depend on the order (shared_emitter_refuted); declarations_permute adds the carriers when no emitter is shared."
  },
  {
   "property": "C130",
   "status": "partial",
   "theorems": [
    "Feign.rotate_turns",
    "Feign.Shapes.mesh_turned",
    "Feign.Shapes.mesh_hit_turned",
    "Feign.Shapes.mirror_inside_out",
    "Feign.Sdf.shape_turned",
    "Feign.Sdf.box_turned_refuted",
    "Feign.Lights.light_turned",
    "Feign.Lights.light_table_turned",
    "Feign.Camera.camera_turned",
    "Feign.Integrators.path_turned",
    "Feign.Integrators.turned_picture",
    "Feign.Integrators.same_numbers_refuted"
   ],
   "note": "Exact arithmetic. Meshes, shapes, lights and cameras turn exactly; averages of paths and limits of pictures agree. Boxes given as distance functions cannot be turned (box_turned_refuted), and renders with the same random numbers differ because tangents are computed from the coordinates of the normal (same_numbers_refuted). Pictures are proved for scenes of diffuse, mirror and glass surfaces with point lights and the default filter."
  },
  {
   "property": "C131",
   "status": "partial",
   "theorems": [
    "Feign.Integrators.path_more_bounces",
    "Feign.Integrators.path_few_bounces",
    "Feign.Integrators.vol_more_bounces_partial",
    "Feign.Integrators.more_bounces_picture",
    "Feign.Integrators.light_least",
    "Feign.Integrators.light_unique",
    "Feign.Integrators.missing_light",
    "Feign.Integrators.missing_in_picture",
    "Feign.Integrators.room_sends",
    "Feign.Integrators.darker_pixel_refuted"
   ],
   "note": "The statement holds ray by ray and in the limit of many samples. It fails pixel by pixel at a finite sample count with the same seed (darker_pixel_refuted): longer paths take more random numbers, so later samples look elsewhere. vol_more_bounces_partial assumes positive termination draws, as in C85. The Whitted integrator has no bounce limit. missing_light takes the share rho as a hypothesis; room_sends gives it from the colours of diffuse, mirror and glass scenes."
  },
  {
   "property": "C132",
   "status": "partial",
   "theorems": [
    "Feign.Integrators.lamps_agree",
    "Feign.Integrators.light_split",
    "Feign.Integrators.physical_light",
    "Feign.Integrators.physical_least",
    "Feign.Integrators.physical_unique",
    "Feign.Integrators.physical_picture",
    "Feign.Integrators.thin_gap_refuted"
   ],
   "note": "Holds if every lamp is at least Epsilon = 1/1000 away from every other object (LampsClear). Without that it fails (thin_gap_refuted): shadow rays end Epsilon before the lamp, so a sheet half a millimetre in front of a lamp does not shade the floor, although no ray from the floor reaches the lamp. Each lamp is one triangle: a mesh emitter with several samples only the first (mesh_first_triangle, C06). Uniqueness and the picture leave glass out; physical_light covers glass scenes for their diffuse and mirror surfaces, glass itself is glass_light (C100). Ray queries are exact."
  },
  {
   "property": "C133",
   "status": "partial",
   "theorems": [
    "Feign.Integrators.no_brighter_ray",
    "Feign.Integrators.no_brighter_picture",
    "Feign.Integrators.furnace_ray",
    "Feign.Integrators.furnace_picture",
    "Feign.Integrators.furnace_behind_refuted"
   ],
   "note": "Exact arithmetic. Fails for surfaces that show their back to the camera (furnace_behind_refuted): diffuse and mirror surfaces are black from behind, so a white sheet seen from its back is black under a white sky. furnace_ray and furnace_picture therefore take hits from the front, leave glass out (a path may stay inside it beyond the bounce limit), and need at least two bounces and a colour of which some channel is at least 1e-4 (below that the path is given up)."
  },
  {
   "property": "C134",
   "status": "partial",
   "theorems": [
    "Feign.Sdf.sdf_picture",
    "Feign.Sdf.sdf_equation",
    "Feign.Sdf.sdf_surfaces",
    "Feign.Sdf.sdf_glass",
    "Feign.Sdf.sdf_picture_limited"
   ],
   "note": "Proved for exact arithmetic and ideal random numbers. What a ray hits is what sphere tracing reports (C26 relates it to the solids: within the tolerance, and not after 2000 steps); shadow rays follow the same tracing and ignore their end (C90)."
  },
  {
   "property": "C135",
   "status": "partial",
   "theorems": [
    "Feign.Parser.file_drawn",
    "Feign.Parser.file_picture",
    "Feign.Parser.file_picture_solves",
    "Feign.Parser.transforms_ignored",
    "Feign.Parser.moved_object_refuted",
    "Feign.Parser.drawn_light",
    "Feign.Parser.drawn_camera"
   ],
   "note": "Proved: from a file that is carried out and complete, what the renderer finds behind its pointers is the declared scene up to the order of the shapes (file_drawn), and its picture tends to the light of paths of the allowed length (file_picture; colours up to white) or to the solution of the rendering equation (file_picture_solves; colours below white). Refuted: transforms in an object's section do not move distance functions (moved_object_refuted); two files that differ only in transforms show the same scenes (transforms_ignored). Exact arithmetic; triangle meshes, media and area lights are not covered here.  What that light is in terms of the declarations: drawn_light, drawn_camera."
  },
  {
   "property": "C136",
   "status": "proved",
   "theorems": [
    "Feign.Parser.file_found",
    "Feign.Parser.file_ambient",
    "Feign.Parser.file_normals",
    "Feign.Parser.file_nice_normals",
    "Feign.Sdf.sdf_ambient",
    "Feign.Sdf.sdf_normals",
    "Feign.Sdf.sdf_nice_normals"
   ],
   "note": "From the file to the limit of the picture for the three views. Exact arithmetic, independent uniform random numbers. How far the reported normal may be from the surface's is C115."
  },
  {
   "property": "C137",
   "status": "partial",
   "theorems": [
    "Feign.Parser.file_whitted_partial",
    "Feign.Parser.drawn_seen",
    "Feign.Sdf.sdf_whitted_partial",
    "Feign.Sdf.sdf_seen"
   ],
   "note": "Exact arithmetic and independent uniform random numbers. Mirrors whose colour is not black but below a ten-thousandth in all channels are excluded: the integrator takes them for black (C104 refutes the claim for them)."
  },
  {
   "property": "C138",
   "status": "partial",
   "theorems": [
    "Feign.Sdf.clear_ball_refuted",
    "Feign.Sdf.clear_head_on",
    "Feign.Sdf.head_on_again",
    "Feign.Sdf.inside_stops",
    "Feign.Sdf.creeping",
    "Feign.Sdf.ball_shows",
    "Feign.Sdf.sdf_glass",
    "Feign.Sdf.sdf_seen"
   ],
   "note": "The code violates it: clear_ball_refuted (a ball of white glass met head on brings back nothing of the sky behind it, for all indices, in path tracing and Whitted's integrator). What it does instead: inside_stops and creeping (a path inside solids moves by at most two tolerances per bounce), head_on_again and clear_head_on (white glass met head on shows what a mirror would show, and is black for equal indices), ball_shows. What holds: at a single surface the light is split into the mirror direction and Snell's direction in the proportion of the reflectance (sdf_glass for path tracing, sdf_seen for Whitted)."
  },
  {
   "property": "C139",
   "status": "partial",
   "theorems": [
    "Feign.B2.grown_smallest",
    "Feign.B2.merge_smallest",
    "Feign.B2.clip_contains",
    "Feign.B2.box_in_box",
    "Feign.B2.axes",
    "Feign.B2.overlaps_iff",
    "Feign.B2.overlaps_refuted",
    "Feign.B2.overlaps_partial",
    "Feign.B2.center_refuted",
    "Feign.B2.int_box_refuted",
    "Feign.B2.int_box_partial"
   ],
   "note": "Holds: growing (grown_smallest, floats), merging, clipping, containment, axes. The code violates the rest: overlaps tests containment (overlaps_refuted, overlaps_iff; a yes is right: overlaps_partial), the centre is undefined behaviour (center_refuted), the empty box of integers contains the origin (int_box_refuted, int_box_partial). Rounding and NaN are not modelled."
  },
  {
   "property": "C14",
   "status": "partial",
   "theorems": [
    "Feign.Api.repeated_object_refuted",
    "Feign.Api.repeated_object_partial"
   ],
   "note": "The code violates it: with timers compiled in, repeating an object name always throws. With timers off the call creates a further object and keeps the others."
  },
  {
   "property": "C140",
   "status": "partial",
   "theorems": [
    "Feign.Wave.square_partial",
    "Feign.Wave.triangle_partial",
    "Feign.Wave.start_refuted",
    "Feign.Wave.crest_refuted"
   ],
   "note": "Holds for square waves that start at the origin (square_partial) and for troughs of triangle waves that start there (triangle_partial). The code violates it elsewhere: start_refuted (a wave that has just started is not at its start) and crest_refuted (crests are cut off, and the wave is negative and unbounded where it should be zero). Exact arithmetic."
  },
  {
   "property": "C141",
   "status": "partial",
   "theorems": [
    "Feign.Parser.file_cosine_partial",
    "Feign.Parser.file_barycentric",
    "Feign.Sdf.sdf_cosine_partial",
    "Feign.Sdf.sdf_barycentric",
    "Feign.Sdf.cosine_ball_refuted",
    "Feign.Sdf.edges_refuted"
   ],
   "note": "What the views do is proved from the file to the limit of the picture: file_cosine_partial (each pixel plus two tends to two minus the cosine, zero where nothing is hit) and file_barycentric. The code violates the statement: cosines have the wrong sign and the background is minus two (cosine_ball_refuted), and every point of every solid is marked as an edge although solids have no triangles (edges_refuted). Exact arithmetic, independent uniform random numbers."
  },
  {
   "property": "C142",
   "status": "partial",
   "theorems": [
    "Feign.Sdf.order_free_partial",
    "Feign.Sdf.told_apart",
    "Feign.Sdf.order_refuted",
    "Feign.Parser.file_order_free_partial",
    "Feign.Sdf.view_order_free",
    "Feign.Parser.file_view_order_free"
   ],
   "note": "Proved for things that are told apart: where two of them are at the same depth within the tolerance of the tracing they look alike; solids of different looks more than two tolerances apart are (told_apart). The unrestricted claim is refuted: of two balls in the same place the first one is seen (order_refuted).  For ambient occlusion and the views of normals, cosines and edges it holds without that condition (view_order_free, file_view_order_free)."
  },
  {
   "property": "C143",
   "status": "partial",
   "theorems": [
    "Feign.Sdf.lamp_order_free",
    "Feign.Parser.file_lamps_free_partial",
    "Feign.Integrators.lamp_samples_refuted"
   ],
   "note": "The order of lamps and skies is covered in full for lamps apart from the solids. At the level of files the order of the objects may change at the same time, for things that are told apart as in C142; without that order_refuted applies.  Single samples do depend on the order (lamp_samples_refuted)."
  },
  {
   "property": "C144",
   "status": "partial",
   "theorems": [
    "Feign.Sdf.copies_free_partial",
    "Feign.Sdf.alike_copies_free",
    "Feign.Sdf.view_copies_free",
    "Feign.Parser.file_copies_free_partial",
    "Feign.Sdf.order_refuted"
   ],
   "note": "Proved for things that are told apart as in C142 (copies_free_partial, file_copies_free_partial), without a condition when all shapes look alike (alike_copies_free) and for ambient occlusion and the views of normals, cosines and edges (view_copies_free). The rest is refuted by Feign.Sdf.order_refuted."
  },
  {
   "property": "C145",
   "status": "partial",
   "theorems": [
    "Feign.Sdf.lamp_sum",
    "Feign.Parser.file_lamp_sum_partial",
    "Feign.Integrators.shine_merge",
    "Feign.Integrators.shine_dark",
    "Feign.Parser.file_lamp_pictures_partial"
   ],
   "note": "Proved for lamps that stand apart from the objects and, between files, for things that are told apart as in C142. shine is the total intensity in a place; shine_merge and shine_dark say that merging lamps and dark lamps do not change it. Not covered: lamps inside or touching the objects, and things that are not told apart, for which already the order matters (Feign.Sdf.order_refuted).  Pictures (file_lamp_pictures_partial): the limits of the pixels of both files differ by at most what the cut of faint paths may leave out."
  },
  {
   "property": "C15",
   "status": "partial",
   "theorems": [
    "Feign.Api.single_scene_partial",
    "Feign.Api.second_scene_mode_refuted"
   ],
   "note": "Every further scene call throws and keeps the scene record; but the rejected call overwrites the SDF mode flag."
  },
  {
   "property": "C16",
   "status": "proved",
   "theorems": [
    "Feign.Api.failed_call_poisons",
    "Feign.Api.failed_call_ignored_without_timers"
   ],
   "note": "Rests on the timers being compiled in (failed_call_ignored_without_timers). A failing assert or undefined behaviour ends the process in the model."
  },
  {
   "property": "C17",
   "status": "proved",
   "theorems": [
    "Feign.Api.transform_history",
    "Feign.Api.transform_history_improper"
   ],
   "note": "Every history of commands; commands with a zero scale factor or a zero axis are shown to leave no finite transform."
  },
  {
   "property": "C18",
   "status": "partial",
   "theorems": [
    "Feign.Api.instance_resolves_iff",
    "Feign.Api.instances_resolve_partial",
    "Feign.Api.shared_mesh_refuted"
   ],
   "note": "Holds exactly for objects that are the last in iteration order to use their mesh; violated whenever two objects share a mesh."
  },
  {
   "property": "C19",
   "status": "proved",
   "theorems": [
    "Feign.det_correct",
    "Feign.matrix_inverse_two_sided"
   ],
   "note": "Over any field."
  },
  {
   "property": "C20",
   "status": "proved",
   "theorems": [
    "Feign.Xf.mul_point",
    "Feign.Xf.mul_vec",
    "Feign.Xf.mul_normal",
    "Feign.Xf.inverse_undoes",
    "Feign.Xf.ray_points",
    "Feign.Xf.normal_dot_vec",
    "Feign.Xf.valid_mul",
    "Feign.Xf.valid_inverse",
    "Feign.Xf.valid_ofMatrix"
   ],
   "note": "Affine transforms whose stored inverse is exact; C17 shows that every transform built by the API is of this kind."
  },
  {
   "property": "C21",
   "status": "proved",
   "theorems": [
    "Feign.rotateCS_rigid",
    "Feign.rotate_rigid",
    "Feign.rotate_direction"
   ],
   "note": "All axes and angles; rotate_direction records that the turn is clockwise seen against the axis."
  },
  {
   "property": "C22",
   "status": "proved",
   "theorems": [
    "Feign.Frame.frame_orthonormal",
    "Feign.Frame.frame_round_trip",
    "Feign.Frame.ofNormal_eq_none_iff",
    "Feign.Frame.sphericalDirection_unit"
   ],
   "note": "All unit normals; the zero vector is shown to be the only input without a frame."
  },
  {
   "property": "C23",
   "status": "proved",
   "theorems": [
    "Feign.B3.intersect_iff",
    "Feign.B3.intersect_params",
    "Feign.B3.intersect_entry_attained",
    "Feign.B3.intersect_swap",
    "Feign.B3.intersect_inverted_box"
   ],
   "note": "Every box with min <= max, every direction incl. zero components, every parameter range; infinities included. Boxes turned inside out are shown to be reported as hit."
  },
  {
   "property": "C24",
   "status": "proved",
   "theorems": [
    "Feign.B3.grow_from_empty",
    "Feign.B3.grow_encloses",
    "Feign.B3.grow_minimal",
    "Feign.B3.grow_minimal_points",
    "Feign.B3.merge_lub",
    "Feign.B3.overlaps_refuted",
    "Feign.B3.containsBox_iff",
    "Feign.B3.containsBoxB_iff",
    "Feign.B3.overlaps_iff",
    "Feign.B3.overlapExcl_iff",
    "Feign.B3.center_symmetric",
    "Feign.B3.center_mem",
    "Feign.B3.surfaceArea_edges"
   ],
   "note": "Every sequence of expand calls, starting from the empty box or any box; merge is the least upper bound. The separate overlaps() query is shown not to test overlap."
  },
  {
   "property": "C25",
   "status": "proved",
   "theorems": [
    "Feign.B3.octants_cover",
    "Feign.B3.octants_disjoint",
    "Feign.B3.octants_equal",
    "Feign.B3.octants_size",
    "Feign.B3.octants_surface"
   ],
   "note": "Every box with min <= max for the cover; disjointness for every box."
  },
  {
   "property": "C26",
   "status": "partial",
   "theorems": [
    "Feign.Sdf.march_sound",
    "Feign.Sdf.hit_near_surface",
    "Feign.Sdf.intersect_finds",
    "Feign.Sdf.spheres_found_partial",
    "Feign.Sdf.cylinder_clipped_refuted"
   ],
   "note": "march_sound: for conservative distance functions, every unit ray, any start, limit and step budget. intersect_finds adds the box and the 2000 steps; hit_near_surface the tolerance; spheres_found_partial the whole pipeline for spheres. Refuted end to end for cylinders (cylinder_clipped_refuted), whose boxes are wrong. Exact real arithmetic."
  },
  {
   "property": "C27",
   "status": "proved",
   "theorems": [
    "Feign.Sdf.closest_shape"
   ],
   "note": "Minimum over all shapes, first index attaining it, none exactly when no shape has a distance. Shapes are arbitrary functions."
  },
  {
   "property": "C28",
   "status": "partial",
   "theorems": [
    "Feign.Sdf.primitives_exact",
    "Feign.Sdf.sphere_signed_distance",
    "Feign.Sdf.plane_signed_distance",
    "Feign.Sdf.box_signed_distance",
    "Feign.Sdf.cylinder_signed_distance",
    "Feign.Sdf.cone_signed_distance",
    "Feign.Sdf.plane_signed_distance_refuted",
    "Feign.Sdf.box_orientation_refuted",
    "Feign.Sdf.degenerate_axis"
   ],
   "note": "Each primitive is the exact signed distance to its solid (bound, attained, 1-Lipschitz, zero set) for non-negative radii, distinct axis end points, unit plane normals and boxes given upper corner first. Refuted for other normals and for boxes given lower corner first, which are invisible."
  },
  {
   "property": "C29",
   "status": "partial",
   "theorems": [
    "Feign.Sdf.sphere_box_contains_partial",
    "Feign.Sdf.sphere_box_tight",
    "Feign.Sdf.plane_box_refuted",
    "Feign.Sdf.box_box_refuted",
    "Feign.Sdf.cylinder_box_refuted",
    "Feign.Sdf.cone_box_refuted"
   ],
   "note": "Holds for spheres (iff the radius is not negative, and tight). Refuted for every plane, every visible box that is not a point, every cylinder with positive radius and every cone with a positive radius."
  },
  {
   "property": "C30",
   "status": "proved",
   "theorems": [
    "Feign.Shapes.mesh_closest_hit",
    "Feign.Shapes.mesh_bad_face"
   ],
   "note": "Every well-formed mesh and ray, ties included; a mesh with a bad vertex index is exactly the case where the call is undefined. A hit is what the single-triangle test accepts (see C31 for how that differs from the geometric triangle)."
  },
  {
   "property": "C31",
   "status": "partial",
   "theorems": [
    "Feign.Shapes.triangle_only_refuted",
    "Feign.Shapes.triangle_test_partial",
    "Feign.Shapes.triangle_found",
    "Feign.Shapes.small_triangle_missed"
   ],
   "note": "The test lacks the u + v <= 1 check, so the claim is refuted: it accepts the whole parallelogram. Proved: exactly what it accepts, that points of non-degenerate triangles are found, and that small triangles are missed because of the absolute determinant threshold."
  },
  {
   "property": "C32",
   "status": "proved",
   "theorems": [
    "Feign.Shapes.grid_well_formed",
    "Feign.Shapes.grid_covers",
    "Feign.Shapes.grid_no_overlap",
    "Feign.Shapes.grid_normals_up"
   ],
   "note": "All resolutions >= 2; covering and non-overlap are stated for points of the square over any ordered field."
  },
  {
   "property": "C33",
   "status": "partial",
   "theorems": [
    "Feign.Photons.nearest_photons",
    "Feign.Photons.nearest_photons_zero_refuted"
   ],
   "note": "Proved for every k >= 1, all photon lists, ties included. k = 0 keeps one photon, which refutes the claim there."
  },
  {
   "property": "C34",
   "status": "partial",
   "theorems": [
    "Feign.Photons.radius_estimate_partial",
    "Feign.Photons.radius_estimate_iff",
    "Feign.Photons.radius_estimate_refuted",
    "Feign.Photons.near_photon_partial",
    "Feign.Photons.near_photon_iff",
    "Feign.Photons.nearest_estimate_partial",
    "Feign.Photons.nearest_estimate_refuted",
    "Feign.Photons.nearest_estimate_ub"
   ],
   "note": "Refuted: the radius is compared with squared distances (exact only for radius 1), and the k-nearest estimate leaves out the farthest photon. Proved: the estimate is the disc estimate for the square root of its argument; the k-1 nearest are counted once; reading outside the list otherwise."
  },
  {
   "property": "C35",
   "status": "partial",
   "theorems": [
    "Feign.Photons.photon_buffer_partial",
    "Feign.Photons.photon_buffer_refuted",
    "Feign.Photons.photon_buffer_sufficient"
   ],
   "note": "Holds for a bounce limit of at most one; for every larger limit and every budget an overrun is exhibited. An array of num + max_bounces - 1 entries would always suffice."
  },
  {
   "property": "C36",
   "status": "partial",
   "theorems": [
    "Feign.Scene.non_null_first_partial",
    "Feign.Scene.non_null_terminates",
    "Feign.Scene.non_null_skipped",
    "Feign.Scene.non_null_first_refuted",
    "Feign.Scene.firstOf_isFirst"
   ],
   "note": "Refuted when a visible surface lies within Epsilon behind a null one (it is skipped). Proved: termination, exactness under separation, and that only such surfaces are ever passed over; for any accelerator that reports a nearest hit, whatever its choice between ties."
  },
  {
   "property": "C37",
   "status": "proved",
   "theorems": [
    "Feign.Integrators.path_radiance",
    "Feign.Integrators.path_bounded",
    "Feign.Integrators.path_nonneg"
   ],
   "note": "Stated on the loop itself (timers included) for every sequence of answers of scene, materials and sampler: the result is the sum over the first maxBounces vertices of throughput times light found, over reached vertices; later answers do not matter; non-negative inputs give a non-negative result. Exact arithmetic. A throughput below 1e-4 in all channels counts as zero, as in the code."
  },
  {
   "property": "C38",
   "status": "partial",
   "theorems": [
    "Feign.Integrators.path_radiance_once_partial",
    "Feign.Integrators.emission_counted_iff_partial",
    "Feign.Integrators.emission_counted_once_partial",
    "Feign.Integrators.wireframe_emission_twice_refuted",
    "Feign.Integrators.null_material_loses_light_refuted",
    "Feign.Integrators.whitted_emission_twice_refuted",
    "Feign.Integrators.whitted_emission_dropped_refuted",
    "Feign.Integrators.whitted_specular_partial"
   ],
   "note": "Holds for the path integrator when all materials use the simple shader and none is the null material. Refuted for the wireframe shader (flag not cleared: counted twice), for null materials (light lost), and for the Whitted integrator (emission of a non-specular surface added twice; emission of a specular surface dropped when the path is ended)."
  },
  {
   "property": "C39",
   "status": "proved",
   "theorems": [
    "Feign.Integrators.ambient_occlusion",
    "Feign.Integrators.ambOcc_eq"
   ],
   "note": "For every answer of the camera and occlusion queries."
  },
  {
   "property": "C40",
   "status": "partial",
   "theorems": [
    "Feign.Integrators.path_timers",
    "Feign.Integrators.whitted_timers",
    "Feign.Integrators.other_timers",
    "Feign.Integrators.render_timers",
    "Feign.Integrators.pool_timers_refuted"
   ],
   "note": "Proved for path (any bounce limit), Whitted (any recursion depth), ambient occlusion and the debug integrators, and for a whole single-threaded render; the unbalanced early return of the normal integrator is unreachable. Volumetric and photon integrators use no timers. Refuted for the thread pool, where the flags are shared. Exceptions thrown by materials are not covered."
  },
  {
   "property": "C41",
   "status": "partial",
   "theorems": [
    "Feign.Bsdf.mirror_law",
    "Feign.Bsdf.dielectric_partial",
    "Feign.Bsdf.one_way_law",
    "Feign.Bsdf.dielectric_unit_refuted",
    "Feign.Bsdf.dielectric_cross_refuted"
   ],
   "note": "Proved: mirror; one-way glass for every unit direction; ordinary glass except directions within Epsilon below the surface, with unit length except within Epsilon of grazing refraction. Refuted: near-grazing refraction loses length and does not leave the surface, and directions within Epsilon below the surface do not cross."
  },
  {
   "property": "C42",
   "status": "partial",
   "theorems": [
    "Feign.Bsdf.fresnel_partial",
    "Feign.Bsdf.fresnel_eq",
    "Feign.Bsdf.fresnel_angle_refuted",
    "Feign.Bsdf.fresnel_value_refuted",
    "Feign.Bsdf.fresnel_grazing_refuted"
   ],
   "note": "Range, total internal reflection, equal indices and normal incidence proved. Refuted: the code's reflectance does not depend on the angle, differs from the Fresnel equations at a concrete angle, and is not a number at grazing incidence."
  },
  {
   "property": "C43",
   "status": "partial",
   "theorems": [
    "Feign.Media.density_le_max",
    "Feign.Media.mandelbrot_range",
    "Feign.Media.density_negative_refuted",
    "Feign.Media.extinction_exceeds_max_refuted",
    "Feign.Media.vdb_maximum_refuted"
   ],
   "note": "Constant and sphere densities stay below maxDensity for the scalar they return; the Mandelbrot density is in [0,1] and its maxDensity throws. Refuted: negative densities and products with sigma_t exceed the reported maximum.  Densities from volume files report no maximum at all: the member is never written (vdb_maximum_refuted)."
  },
  {
   "property": "C44",
   "status": "partial",
   "theorems": [
    "Feign.Media.transmittance_range",
    "Feign.Media.ratio_returns_iff",
    "Feign.Media.march_returns",
    "Feign.Media.ratio_negative_majorant_refuted",
    "Feign.Media.march_stuck_refuted",
    "Feign.Media.ratio_zero_majorant_refuted"
   ],
   "note": "Every returned transmittance is in [0,1] and 1 in a vacuum, for every estimator, majorant, step size and random sequence. Ratio tracking returns exactly when the random numbers cover the segment; ray marching returns for a positive step. Refuted: with a negative majorant or a non-positive step the call never returns; two estimators throw. With a majorant of zero it never returns when the random number is zero."
  },
  {
   "property": "C45",
   "status": "partial",
   "theorems": [
    "Feign.Media.sample_after_start_partial",
    "Feign.Media.scatter_extinction",
    "Feign.Media.sample_weight",
    "Feign.Media.analytic_distribution",
    "Feign.Media.sample_before_start_refuted",
    "Feign.Media.analytic_transmittance_refuted",
    "Feign.Media.colour_minimum_refuted"
   ],
   "note": "Distances are at or after the start for all samplers with a step size that is not negative; scattering happens only where every channel of the extinction is positive; weights are defined, in [0,1] and the single-scattering albedo at a scatter; the analytic sampler follows Beer-Lambert. Refuted: a negative step size scatters behind the start; sampling follows the least dense channel and uses the extinction squared."
  },
  {
   "property": "C46",
   "status": "partial",
   "theorems": [
    "Feign.Media.homogeneous",
    "Feign.Media.march_step_refuted",
    "Feign.Media.sigma_squared_refuted"
   ],
   "note": "The homogeneous estimator composes along a segment, decreases and follows the configured extinction. Refuted: ray marching ignores the step length and the extinction enters squared in the other estimators."
  },
  {
   "property": "C47",
   "status": "partial",
   "theorems": [
    "Feign.Media.phase_normalised",
    "Feign.Media.phase_nonneg_partial",
    "Feign.Media.phase_sample",
    "Feign.Media.eddington_negative_refuted",
    "Feign.Media.ellipsoidal_zero_refuted"
   ],
   "note": "All six implemented phase functions integrate to one over the sphere for admissible parameters; five are non-negative; sampling returns a unit direction and the value of eval for it. Refuted: Eddington is negative and ignores its parameter; ellipsoidal undefined at 0. Binomial sampling and three phase functions throw in the code."
  },
  {
   "property": "C48",
   "status": "partial",
   "theorems": [
    "Feign.Warp.uniDisk_domain",
    "Feign.Warp.uniSph_domain",
    "Feign.Warp.uniSphCap_domain",
    "Feign.Warp.uniHemi_domain",
    "Feign.Warp.cosHemi_domain",
    "Feign.Warp.cosPowHemi_domain_partial",
    "Feign.Warp.cosPow_zero_density_refuted",
    "Feign.Warp.uniTri_domain_partial",
    "Feign.Warp.uniTriPdf_outside_refuted"
   ],
   "note": "Disk, sphere, cap, hemisphere and cosine hemisphere outright. The power-cosine warp gives a zero-density sample for the random number 0, and the triangle density is positive at some points outside the triangle (both shown)."
  },
  {
   "property": "C49",
   "status": "proved",
   "theorems": [
    "Feign.Image.box_wellBehaved",
    "Feign.Image.gauss_wellBehaved",
    "Feign.Image.gauss_evaluate",
    "Feign.Image.gauss_pos_iff"
   ],
   "note": "Box over any ordered field, Gaussian over the reals."
  },
  {
   "property": "C50",
   "status": "partial",
   "theorems": [
    "Feign.Sampling.reseed_stream",
    "Feign.Sampling.reseed_forgets",
    "Feign.Sampling.worker_copies",
    "Feign.Sampling.pool_samplers_deterministic",
    "Feign.Sampling.pool_image_deterministic",
    "Feign.Sampling.plain_copy_loses_count",
    "Feign.Sampling.copies_keep_count_refuted",
    "Feign.Sampling.negative_count_refuted",
    "Feign.Sampling.reseed_own_restarts"
   ],
   "note": "Reseeding forgets the history, worker copies carry the count, and the pool's samplers and image are functions of the scene sampler. False of the code: a plain copy loses the sample count, and a negative count becomes huge. The generator pcg32 is external and a parameter."
  },
  {
   "property": "C51",
   "status": "partial",
   "theorems": [
    "Feign.Tex.lookup_inside_partial",
    "Feign.Tex.lookup_cell",
    "Feign.Tex.inexact_size_refuted",
    "Feign.Tex.empty_image_ub",
    "Feign.Tex.nan_coordinate_ub",
    "Feign.Tex.inexact_height_refuted"
   ],
   "note": "Lookups stay inside for finite coordinates when the image size is an exact float. False of the code for wider images, empty images and NaN coordinates."
  },
  {
   "property": "C52",
   "status": "partial",
   "theorems": [
    "Feign.Parser.section_call",
    "Feign.Parser.media_optics_fixed",
    "Feign.Parser.sampler_call",
    "Feign.Parser.integrator_call",
    "Feign.Parser.grid_call",
    "Feign.Parser.box_call",
    "Feign.Parser.texture_call_partial",
    "Feign.Parser.texture_scale_ignored",
    "Feign.Parser.texture_proxy_ub",
    "Feign.Parser.texture_call_refuted",
    "Feign.Parser.emitter_call",
    "Feign.Parser.object_call",
    "Feign.Parser.document_ok",
    "Feign.Parser.document_stops",
    "Feign.Parser.rendered_iff_accepted",
    "Feign.Parser.document_transforms",
    "Feign.Parser.unknown_section_aborts",
    "Feign.Parser.unknown_section_not_rendered",
    "Feign.Parser.unsupported_type_partial",
    "Feign.Parser.unsupported_type_not_rendered_partial",
    "Feign.Parser.unsupported_accel_ignored",
    "Feign.Parser.unsupported_type_refuted",
    "Feign.Parser.missing_file_ub",
    "Feign.Parser.not_an_object_ub",
    "Feign.Parser.timings_partial"
   ],
   "note": "All sections, field subsets and section orders. Proved: every row of the format table (19 rows plus sampler, integrator, grid, box, 6 lights, objects) gives exactly its API call with given or default parameters; documents run their sections in order and render exactly if all are accepted; objects and cameras get exactly their own transforms; unknown sections abort. Refuted: an unsupported accelerator type is silently ignored; a texture's scale is ignored (or undefined behaviour with proxy). rapidjson itself (text to tree) is not modelled."
  },
  {
   "property": "C53",
   "status": "partial",
   "theorems": [
    "Feign.vec_compare_refuted",
    "Feign.vec2_compare_refuted",
    "Feign.vec_compare_partial",
    "Feign.vec_compare_consistent_iff"
   ],
   "note": "Refuted: != means all components differ. Partial: == is equality, != implies inequality, exact characterisation of when they are consistent."
  },
  {
   "property": "C54",
   "status": "partial",
   "theorems": [
    "Feign.complex_sub_assign_refuted",
    "Feign.complex_sub_assign_iff",
    "Feign.complex_laws_partial",
    "Feign.complex3_laws",
    "Feign.complex3_norm_not_multiplicative"
   ],
   "note": "Refuted for in-place subtraction of the two-component type (it adds); every other law holds over any commutative ring."
  },
  {
   "property": "C55",
   "status": "partial",
   "theorems": [
    "Feign.Tools.run_all_partial",
    "Feign.Tools.nan_error_passes_refuted",
    "Feign.Tools.missing_directory_passes",
    "Feign.Tools.run_test_inverted",
    "Feign.Tools.single_test_refuted",
    "Feign.Tools.single_reference_reports_failure",
    "Feign.Tools.all_references_report_success",
    "Feign.Tools.test_file_names_injective",
    "Feign.Tools.test_file_name_width"
   ],
   "note": "Running all tests is right for errors that are numbers. False of the code: a NaN error passes, a missing directory passes, and the single-test verdict is inverted."
  },
  {
   "property": "C56",
   "status": "partial",
   "theorems": [
    "Feign.Tools.record_round_trip_partial",
    "Feign.Tools.parse_never_returns",
    "Feign.Tools.round_trip_refuted",
    "Feign.Tools.date_exchanged",
    "Feign.Tools.short_line_ub",
    "Feign.Tools.stofExact_fmtInt",
    "Feign.Tools.stofExact_fmtFixed",
    "Feign.Tools.record_dates_truncate"
   ],
   "note": "Timings are read back to six decimals up to the reader's last statement. False of the code: the date fields are exchanged and the reader always stores past the end.  For any text the date fields are the first three numbers without their fractions (record_dates_truncate)."
  },
  {
   "property": "C57",
   "status": "partial",
   "theorems": [
    "Feign.vec_max_refuted",
    "Feign.vec_reductions_partial",
    "Feign.vec_max_correct_iff",
    "Feign.vec_maxIndex_partial",
    "Feign.vec_maxIndex_refuted"
   ],
   "note": "max() returns the smallest component and maxIndex mishandles ties (both refuted); the other reductions are right for every vector."
  },
  {
   "property": "C58",
   "status": "proved",
   "theorems": [
    "Feign.Camera.lookAt_frame",
    "Feign.Camera.lookAt_degenerate",
    "Feign.Camera.cameraToWorld_spec",
    "Feign.Camera.pinhole_ray",
    "Feign.Camera.centre_ray_hits_target"
   ],
   "note": ""
  },
  {
   "property": "C59",
   "status": "proved",
   "theorems": [
    "Feign.Camera.lens_focus"
   ],
   "note": "For every affine camera placement."
  },
  {
   "property": "C60",
   "status": "proved",
   "theorems": [
    "Feign.Warp.uniDisk_density",
    "Feign.Warp.uniSph_density",
    "Feign.Warp.uniSphCap_density",
    "Feign.Warp.uniHemi_density",
    "Feign.Warp.cosHemi_density",
    "Feign.Warp.cosPowHemi_density",
    "Feign.Warp.uniTri_density"
   ],
   "note": "Zones are height bands (radii for the disk, first-coordinate bands for the triangle); the azimuth is the first random number times 2 pi by definition of the warps. These theorems compare zones (heights, radii); C98 has the laws for all functions and sets of directions."
  },
  {
   "property": "C61",
   "status": "partial",
   "theorems": [
    "Feign.Api.complete_renders",
    "Feign.Api.undefined_mesh_throws_partial",
    "Feign.Api.undefined_emitter_refuted",
    "Feign.Api.undefined_camera_refuted",
    "Feign.Api.undefined_filter_refuted"
   ],
   "note": "Undefined meshes throw, and a render succeeds exactly for complete descriptions; undefined lights, cameras and filters are null dereferences."
  },
  {
   "property": "C62",
   "status": "partial",
   "theorems": [
    "Feign.Api.placement",
    "Feign.Api.placement_partial",
    "Feign.Api.placement_refuted"
   ],
   "note": "Objects alone in using a mesh; shared meshes accumulate all transforms."
  },
  {
   "property": "C63",
   "status": "partial",
   "theorems": [
    "Feign.Api.cleanup_partial",
    "Feign.Api.cleanup_leak_refuted"
   ],
   "note": "No double deletion; transmittance function nodes leak."
  },
  {
   "property": "C64",
   "status": "proved",
   "theorems": [
    "Feign.Shapes.hit_position",
    "Feign.Shapes.geom_normal",
    "Feign.Shapes.hit_uv_between",
    "Feign.Shapes.hit_uv_follows",
    "Feign.Shapes.hit_uv_none",
    "Feign.Shapes.shading_normal_follows",
    "Feign.Shapes.shading_normal_none"
   ],
   "note": "Texture coordinates and shading normals are those of the affine interpolation of the corners at the hit position; texture coordinates stay between those of the corners for points of the triangle; see C31 for hits outside the triangle."
  },
  {
   "property": "C65",
   "status": "proved",
   "theorems": [
    "Feign.Shapes.face_box_contains",
    "Feign.Shapes.mesh_box",
    "Feign.Shapes.face_centroid",
    "Feign.Shapes.mesh_centroid",
    "Feign.Shapes.face_area"
   ],
   "note": "Exact arithmetic."
  },
  {
   "property": "C66",
   "status": "proved",
   "theorems": [
    "Feign.Shapes.terrain_faces_up",
    "Feign.Shapes.grid_vertex_used",
    "Feign.Shapes.terrain_normals",
    "Feign.Shapes.terrain_final_normals"
   ],
   "note": "The zero-normal fallback in the code is never taken."
  },
  {
   "property": "C67",
   "status": "partial",
   "theorems": [
    "Feign.Photons.photon_power_partial",
    "Feign.Photons.photon_power_refuted",
    "Feign.Photons.photon_power_green_wall_refuted"
   ],
   "note": "Holds when all channels are positive. A light or surface with a zero red channel makes later photons not-a-number (0/0 in the roulette probability)."
  },
  {
   "property": "C68",
   "status": "proved",
   "theorems": [
    "Feign.Photons.photon_tracing_ends",
    "Feign.Photons.photon_tracing_diverges",
    "Feign.Photons.photon_tracing_no_bounces",
    "Feign.Photons.photon_tracing_ends_iff",
    "Feign.Photons.photon_tracing_stops",
    "Feign.Photons.photon_tracing_mirrors_refuted"
   ],
   "note": "Ends for every budget if and only if paths keep reaching non-specular surfaces (photon_tracing_ends_iff), and not a path later than needed (photon_tracing_stops). That tracing ends in every scene is not claimed: with mirrors only, with every path missing, or with a bounce limit of zero it runs for ever (the other theorems). Whether the array is overrun on the way is C35."
  },
  {
   "property": "C69",
   "status": "partial",
   "theorems": [
    "Feign.Scene.shadow_visibility",
    "Feign.Scene.shadow_terminates",
    "Feign.Scene.shadow_safe",
    "Feign.Scene.shadow_no_boundary_ub",
    "Feign.Scene.shadow_answer",
    "Feign.Scene.shadow_exact_partial",
    "Feign.Scene.shadow_exact_refuted",
    "Feign.Scene.shadow_null_surface_refuted"
   ],
   "note": "shadow_answer states it for the Boolean and the throughput the query hands back. Blocked is always right; clear is right when visible surfaces are not within Epsilon behind null ones. A null surface declared without media is a null dereference. The two conditions are needed: shadow_exact_refuted, shadow_null_surface_refuted."
  },
  {
   "property": "C70",
   "status": "partial",
   "theorems": [
    "Feign.Scene.transmittance_product",
    "Feign.Scene.transmittance_bounds",
    "Feign.Scene.transmittance_empty",
    "Feign.Scene.transmittance_one_medium_partial",
    "Feign.Scene.transmittance_two_media_refuted",
    "Feign.Scene.transmittance_inside",
    "Feign.Scene.transmittance_boundaries",
    "Feign.Scene.transmittance_start_inside",
    "Feign.Scene.transmittance_gaps",
    "Feign.Scene.transmittance_right_iff"
   ],
   "note": "The factor is computed outright for a ray that meets any number of media boundaries, from outside (transmittance_boundaries) and from inside (transmittance_start_inside). For convex media in a row it is the right factor times that of the empty gaps, each filled with the medium in front of it (transmittance_gaps), so it is right exactly when the gaps contribute 1 or the throughput is 0 (transmittance_right_iff); refuted for two media in a row."
  },
  {
   "property": "C71",
   "status": "partial",
   "theorems": [
    "Feign.Integrators.roulette_keeps_expectation",
    "Feign.Integrators.survival_probability",
    "Feign.Integrators.path_mean",
    "Feign.Integrators.whitted_emission_dropped_refuted",
    "Feign.Integrators.whitted_unbounded_refuted"
   ],
   "note": "Path integrator: throughput times the product of the continuation probabilities equals the product of weights for every reached vertex, and that product is the probability (Lebesgue measure on the unit cube of random numbers) of getting there. The cut-off of throughputs below 1e-4 is a bias; C100 (path_mean) bounds it by a ten-thousandth of the brightest light. Refuted for Whitted, which drops what it has found, and which has no depth limit."
  },
  {
   "property": "C72",
   "status": "partial",
   "theorems": [
    "Feign.Bsdf.diffuse_consistent",
    "Feign.Bsdf.phong_sample",
    "Feign.Bsdf.phong_law",
    "Feign.Bsdf.blinn_density_refuted",
    "Feign.Bsdf.blinn_albedo",
    "Feign.Bsdf.blinn_value",
    "Feign.Bsdf.blinn_density"
   ],
   "note": "Diffuse and Phong proved (Phong's albedo when the direction is not within Epsilon of a right angle from the mirror direction; phong_law gives the distribution of its directions as a measure). Refuted for Blinn: the density is not that of the sampled direction. For Blinn, blinn_albedo shows that the reflectance reported is that of evaluation, and blinn_value gives it in closed form. blinn_density states which density Blinn does report."
  },
  {
   "property": "C73",
   "status": "partial",
   "theorems": [
    "Feign.Bsdf.diffuse_energy",
    "Feign.Bsdf.diffuse_consistent",
    "Feign.Bsdf.phong_energy_refuted",
    "Feign.Bsdf.phong_leaks_refuted",
    "Feign.Bsdf.phong_evaluates_negative_refuted",
    "Feign.Bsdf.blinn_leaks_refuted",
    "Feign.Bsdf.diffuse_energy_everywhere",
    "Feign.Bsdf.phong_energy_partial",
    "Feign.Bsdf.blinn_energy",
    "Feign.Bsdf.blinn_energy_refuted"
   ],
   "note": "Diffuse returns exactly its colour, in every channel and for light from everywhere above (diffuse_energy_everywhere), and nothing crosses the surface. Refuted for Phong (returns kd+ks, scatters below the surface, and evaluates to a negative reflectance for odd exponents) and Blinn (evaluates to a positive reflectance across the surface).  Phong never returns more than kd+ks, from any direction (phong_energy_partial). Blinn returns up to four times its specular share (blinn_energy, blinn_energy_refuted)."
  },
  {
   "property": "C74",
   "status": "partial",
   "theorems": [
    "Feign.Media.ratio_tracking_mean",
    "Feign.Media.ratio_tracking_unbiased",
    "Feign.Media.delta_tracking_distribution",
    "Feign.Media.density_steps",
    "Feign.Media.medium_ratio_unbiased",
    "Feign.Media.ratio_tracking_biased_refuted"
   ],
   "note": "Limit of averages over n independent uniform numbers as n grows, proved for every almost-continuous extinction and for all implemented densities along every line; delta tracking with the extinction of the least dense channel (what the code uses). Refuted: a majorant below the extinction is accepted and biases the estimate."
  },
  {
   "property": "C75",
   "status": "partial",
   "theorems": [
    "Feign.Media.hg_drawn",
    "Feign.Media.rayleigh_drawn",
    "Feign.Media.ellipsoidal_drawn",
    "Feign.Media.eddington_drawn",
    "Feign.Media.hg_density_refuted",
    "Feign.Media.ellipsoidal_density_refuted",
    "Feign.Media.eddington_density_refuted",
    "Feign.Media.isotropic_directions",
    "Feign.Media.rayleigh_directions",
    "Feign.Media.hg_directions",
    "Feign.Media.ellipsoidal_directions",
    "Feign.Media.eddington_directions"
   ],
   "note": "The probability of scattering into any measurable set of directions, as an integral over solid angle, for every phase function (Henyey-Greenstein and Eddington with parameter at least the cut-off used by the code), and the distribution functions of the drawn cosine. Isotropic and Rayleigh match the returned value; the others are refuted (value of the mirrored direction, or of a fixed parameter)."
  },
  {
   "property": "C76",
   "status": "partial",
   "theorems": [
    "Feign.Sampling.configured_seed_ignored",
    "Feign.Sampling.seed_is_used_refuted",
    "Feign.Sampling.preprocessed_seed_is_used_partial"
   ],
   "note": "False of the code: nothing calls the sampler's preProcess or reseed, so the configured seed is never used. Proved for a sampler that was preprocessed."
  },
  {
   "property": "C77",
   "status": "partial",
   "theorems": [
    "Feign.Tools.unknown_arguments_skipped",
    "Feign.Tools.last_scene_wins",
    "Feign.Tools.exit_status_all",
    "Feign.Tools.exit_status_single_inverted",
    "Feign.Tools.exit_status_single_refuted",
    "Feign.Tools.missing_value_ub",
    "Feign.Tools.exit_status_references",
    "Feign.Tools.exit_status_values"
   ],
   "note": "Exit status of a full run, skipping of unknown arguments and precedence proved; the single-test exit status is inverted and a missing option value is undefined behaviour."
  },
  {
   "property": "C78",
   "status": "proved",
   "theorems": [
    "Feign.Tools.average_is_mean"
   ],
   "note": "Exact arithmetic."
  },
  {
   "property": "C79",
   "status": "proved",
   "theorems": [
    "Feign.Tex.env_coords",
    "Feign.Tex.env_lookup",
    "Feign.Tex.env_long_direction_ub"
   ],
   "note": "Exact real arithmetic; directions of length above one leave the domain of acos."
  },
  {
   "property": "C80",
   "status": "proved",
   "theorems": [
    "Feign.Tex.bake_spec",
    "Feign.Tex.bake_image_texture",
    "Feign.Tex.sin_texture_bounded",
    "Feign.Tex.sin_texture_blue_constant",
    "Feign.Tex.sin_texture_pattern"
   ],
   "note": "Any texture and size; the sine texture's blue channel never varies."
  },
  {
   "property": "C81",
   "status": "partial",
   "theorems": [
    "Feign.Shapes.obj_reads",
    "Feign.Shapes.obj_round_trip",
    "Feign.Shapes.faces_are_triangles",
    "Feign.Shapes.corner_no_coord",
    "Feign.Shapes.corner_vertex_only",
    "Feign.Shapes.corner_no_normal",
    "Feign.Shapes.index_zero",
    "Feign.Shapes.index_negative",
    "Feign.Shapes.short_vertex",
    "Feign.Shapes.accepted_faces_refuted",
    "Feign.Shapes.missing_obj_throws",
    "Feign.Shapes.obj_normal_unit",
    "Feign.Shapes.obj_normal_flip"
   ],
   "note": "Every file made of v, vt, vn, i/j/k faces and other lines (obj_reads), with a write/read round trip. Accepted faces have exactly three corners; quads and i//k are rejected. Refuted: faces in the forms i and i/j, numbers 0 and negative numbers and short vertex lines are accepted and misread; indices are not checked. Scanning of floating point numbers (library) is a parameter."
  },
  {
   "property": "C82",
   "status": "partial",
   "theorems": [
    "Feign.Media.survive_zero",
    "Feign.Media.survive_range",
    "Feign.Media.survive_antitone_partial",
    "Feign.Media.survive_surface",
    "Feign.Media.survive_medium_refuted",
    "Feign.Media.survive_tendsto",
    "Feign.Media.density_deriv_partial",
    "Feign.Media.density_refuted",
    "Feign.Media.lin_medium_mass",
    "Feign.Media.density_nonneg_partial",
    "Feign.Media.channels",
    "Feign.Media.channels_refuted",
    "Feign.Media.reciprocity",
    "Feign.Media.eval_symm",
    "Feign.Media.eval_eq",
    "Feign.Media.exp_share",
    "Feign.Media.lin_medium_share",
    "Feign.Media.lin_surface_share",
    "Feign.Media.lin_surface_share_partial",
    "Feign.Media.lin_surface_refuted",
    "Feign.Media.davis_search_ends",
    "Feign.Media.davis_search_partial",
    "Feign.Media.davis_share_partial",
    "Feign.Media.davis_channels"
   ],
   "note": "Proved for the exponential function in full. Linear: survival, limits, direction and medium sampling in full; surface sampling is off by up to 1e-5 (lin_surface_share gives the exact law) and the medium density is wrong near the last depth and integrates to 2e-3 (density_refuted, lin_medium_mass). Davis: survival from surfaces, range, limit and derivatives for every h beyond the 1e-4 cut-off, the search within 2e-6 below 4e6; inside a medium the survival function is not monotone for h < 1/2 (survive_medium_refuted), and only the first channel is read (channels_refuted). The scene API creates the exponential and the linear function only, and the build's setting NONEXPMEDIA false leaves their evaluation unused by the shipped estimators."
  },
  {
   "property": "C83",
   "status": "partial",
   "theorems": [
    "Feign.Lights.point_light",
    "Feign.Lights.point_light_at_light",
    "Feign.Lights.spot_sample",
    "Feign.Lights.spot_cone_partial",
    "Feign.Lights.spot_cone_refuted",
    "Feign.Lights.spot_no_falloff",
    "Feign.Lights.spot_falloff_refuted",
    "Feign.Lights.directional_partial",
    "Feign.Lights.directional_unit_refuted",
    "Feign.Lights.dirMesh_direction_refuted",
    "Feign.Lights.dirMesh_front_partial",
    "Feign.Lights.mesh_first_triangle",
    "Feign.Lights.mesh_degenerate_first",
    "Feign.Lights.mesh_average_partial",
    "Feign.Lights.mesh_on_light_refuted",
    "Feign.Lights.mesh_emission_consistent"
   ],
   "note": "Point light proved outright. Spot light cone and directional light for unit directions only: the constructors normalise the parameter instead of the member (spot_cone_refuted, directional_unit_refuted); spot lights do not weaken with distance (spot_falloff_refuted). Area light: the average is the surface integral for meshes of one triangle (mesh_average_partial, for all other factors); with more triangles only the first is sampled and points fall off the light (mesh_on_light_refuted). Directional mesh lights emit in all directions when hit (dirMesh_direction_refuted)."
  },
  {
   "property": "C84",
   "status": "partial",
   "theorems": [
    "Feign.Lights.all_lights",
    "Feign.Lights.one_light_average",
    "Feign.Lights.modes_agree_partial",
    "Feign.Lights.modes_normal_refuted",
    "Feign.Lights.modes_own_refuted",
    "Feign.Lights.point_direct",
    "Feign.Lights.light_nonneg_partial",
    "Feign.Lights.point_good",
    "Feign.Lights.negative_light_refuted",
    "Feign.Lights.spot_undefined",
    "Feign.Lights.directional_undefined",
    "Feign.Lights.dirMesh_undefined",
    "Feign.Lights.multi_first_only",
    "Feign.Lights.multi_average_refuted",
    "Feign.Lights.dirMesh_direct",
    "Feign.Lights.multi_light"
   ],
   "note": "Sum over all lights (all_lights) and average over one random light (one_light_average) proved for all scenes in which the outcomes are defined. The two modes agree when the normals agree and no light belongs to the surface (modes_agree_partial; modes_normal_refuted, modes_own_refuted). Directions up to Epsilon below the horizon give negative light (negative_light_refuted). Spot, directional and unseen directional mesh lights read a distance that was never written (spot_undefined, directional_undefined, dirMesh_undefined). eval_multi_emitters keeps its first entry only, with the throughput of the first round and the direction of the last (multi_light)."
  },
  {
   "property": "C85",
   "status": "partial",
   "theorems": [
    "Feign.Integrators.Vol.vol_radiance",
    "Feign.Integrators.Vol.vol_running_iff",
    "Feign.Integrators.Vol.vol_returns",
    "Feign.Integrators.Vol.vol_fuel",
    "Feign.Integrators.Vol.vol_endless_refuted",
    "Feign.Integrators.Vol.medium_after_boundary",
    "Feign.Integrators.Vol.medium_before_boundaries",
    "Feign.Integrators.Vol.glass_boundary_refuted",
    "Feign.Integrators.Vol.vol_nonneg_partial",
    "Feign.Integrators.Vol.vol_no_zero_division_partial",
    "Feign.Integrators.Vol.vol_roulette_partial",
    "Feign.Integrators.Vol.vol_zero_draw_refuted"
   ],
   "note": "Sum over the path, medium along the path, end of the path and stability proved for all answers; sign, division and termination weight under positive draws. Refuted: endless null surfaces, boundaries on objects with a material, throughput 0 with draw 0."
  },
  {
   "property": "C86",
   "status": "proved",
   "theorems": [
    "Feign.Integrators.Vol.vol_eq_path"
   ],
   "note": "Equality of the two loops for any interleaving of empty null surfaces."
  },
  {
   "property": "C87",
   "status": "partial",
   "theorems": [
    "Feign.Integrators.Vol.light_once_partial",
    "Feign.Integrators.Vol.vol_radiance_once_partial",
    "Feign.Integrators.Vol.first_scatter_emission_twice_refuted",
    "Feign.Integrators.Vol.leftover_samples_refuted",
    "Feign.Integrators.Vol.phase_of_wrong_direction_refuted",
    "Feign.Integrators.Vol.light_behind_fog_refuted"
   ],
   "note": "Proved for paths that avoid the four situations in which the code counts wrongly; each of these refuted by a witness."
  },
  {
   "property": "C88",
   "status": "partial",
   "theorems": [
    "Feign.Integrators.trans_view_partial",
    "Feign.Integrators.trans_view_clear",
    "Feign.Integrators.trans_view_inside_refuted",
    "Feign.Integrators.trans_view_open_refuted",
    "Feign.Integrators.trans_view_no_inside_refuted"
   ],
   "note": "Proved for a camera in front of a closed medium, except the first Epsilon; refuted for a camera inside, an open mesh, and a boundary without inside."
  },
  {
   "property": "C89",
   "status": "partial",
   "theorems": [
    "Feign.Shaders.sphere_shader_refuted",
    "Feign.Shaders.sphere_shader_partial",
    "Feign.Shaders.toSphere_ends",
    "Feign.Shaders.sphere_normals_unit",
    "Feign.Shaders.shortest_side_partial",
    "Feign.Shaders.shortest_side_refuted",
    "Feign.Shaders.normal_index_refuted",
    "Feign.Shaders.preProcess_plain"
   ],
   "note": "Refuted for every mesh of a scene: the shader runs before centroid and box exist, so all coordinates become infinite or not-a-number. Proved for a mesh whose centroid and box are known and valid indices; ties between sides and out-of-range normals refuted."
  },
  {
   "property": "C90",
   "status": "partial",
   "theorems": [
    "Feign.Sdf.interval_ignored",
    "Feign.Sdf.shadow_behind_light_refuted",
    "Feign.Sdf.null_shape_endless_refuted",
    "Feign.Sdf.null_shape_shadow_endless_refuted",
    "Feign.Sdf.sdf_query_partial",
    "Feign.Sdf.sdf_shadow_partial"
   ],
   "note": "The interval has no influence at all on the answer (interval_ignored). Hence the property fails: a sphere behind the light shadows it, and a null shape as first hit makes both queries run forever. Proved for scenes without null shapes: hits are found and free rays stay free, up to the step limit of 2000."
  },
  {
   "property": "C91",
   "status": "partial",
   "theorems": [
    "Feign.Shaders.wire_near_edges",
    "Feign.Shaders.wire_thresholds",
    "Feign.Shaders.wire_sdf_refuted"
   ],
   "note": "Proved for every mesh triangle with exact distances to the edges, and for the two limiting thresholds. Refuted for signed-distance shapes: the hit weights are never written, so everything is wire for a positive threshold. Single precision rounding is not modelled."
  },
  {
   "property": "C92",
   "status": "partial",
   "theorems": [
    "Feign.Media.own_settings_iff",
    "Feign.Media.media_own_settings_partial",
    "Feign.Media.shared_estimator_alike",
    "Feign.Media.shared_estimator_refuted",
    "Feign.Media.shared_density_refuted"
   ],
   "note": "Exact condition proved: every medium finds its own settings in every order iff media that share a component agree on what they store in it (own_settings_iff); under it every medium attenuates and scatters as if alone, placed by its transform (media_own_settings_partial). The full property is false of the code: components are shared by name and the medium prepared last overwrites them, so two scene-file media that leave the estimator at its default both get the density of the last one (shared_estimator_refuted, shared_estimator_alike, shared_density_refuted). Exact arithmetic; OpenVDB densities not modelled."
  },
  {
   "property": "C93",
   "status": "partial",
   "theorems": [
    "Feign.Photons.launch_point",
    "Feign.Photons.launch_mean",
    "Feign.Photons.launch_other_refuted",
    "Feign.Photons.photon_shares",
    "Feign.Photons.photon_shares_iff",
    "Feign.Photons.photon_shares_partial",
    "Feign.Photons.interreflection_refuted",
    "Feign.Photons.escaping_refuted"
   ],
   "note": "Proved: with point lights every path starts with its light's power over the probability of choosing it, and the mean over the choice is the total power of the lights (launch_point, launch_mean); the map holds the photons of the emitted paths divided by the wanted number of photons (photon_shares), which is the right share exactly if as many paths were emitted as photons wanted (photon_shares_iff), e.g. for one bounce when every path hits a diffuse surface (photon_shares_partial). The full property is false of the code: interreflection makes the map too dark, escaping light makes it too bright, and any light other than a point light throws. Exact arithmetic."
  },
  {
   "property": "C94",
   "status": "partial",
   "theorems": [
    "Feign.Photons.view_iff",
    "Feign.Photons.view_partial",
    "Feign.Photons.view_refuted",
    "Feign.Photons.view_mirror_refuted"
   ],
   "note": "Exact condition proved (view_iff): the view is emission plus the disc estimate with radius 0.1 exactly if the surface emits nothing (environment: exactly if black); view_partial is the case that holds. The full property is false of the code: emission is never added, rays that miss are black (view_refuted), mirrors gather photons like diffuse surfaces (view_mirror_refuted). What the camera ray hits is an argument of the model (C36, C69)."
  },
  {
   "property": "C95",
   "status": "partial",
   "theorems": [
    "Feign.Scene.hits_attributed_partial",
    "Feign.Scene.attribution",
    "Feign.Scene.mixed_scene_refuted",
    "Feign.Scene.sdf_mode"
   ],
   "note": "Proved for scenes of meshes, given that Embree answers with a nearest hit of the geometries attached to it (hits_attributed_partial). Refuted in general: a distance function in a mesh scene attaches no geometry but takes a place in the list, so hits on later meshes are attributed to an earlier shape (attribution gives the exact shift, mixed_scene_refuted a witness). sdf_mode: in distance function mode a mesh is undefined behaviour."
  },
  {
   "property": "C96",
   "status": "partial",
   "theorems": [
    "Feign.Photons.roulette_partial",
    "Feign.Photons.roulette_mean",
    "Feign.Photons.roulette_absorbs",
    "Feign.Photons.roulette_no_red_refuted"
   ],
   "note": "Proved for photons with a red part on surfaces that reflect some channel they have (roulette_partial, with roulette_mean for the integral) and for black surfaces (roulette_absorbs). Refuted without red: the path never ends by roulette and goes on as not-a-number (roulette_no_red_refuted). Exact arithmetic, cosine positive."
  },
  {
   "property": "C97",
   "status": "partial",
   "theorems": [
    "Feign.Api.area_light_partial",
    "Feign.Api.sampled_everywhere_iff",
    "Feign.Api.lamp_of_last",
    "Feign.Api.two_carriers_refuted",
    "Feign.Api.shared_mesh_lamp_refuted",
    "Feign.Api.uncarried_refuted"
   ],
   "note": "Proved when no two objects share a mesh and one object carries the light (area_light_partial); exact condition for sampling on all carriers (sampled_everywhere_iff) and who wins otherwise (lamp_of_last). The full property is false of the code: of several carriers only the last in iteration order is sampled although all glow (two_carriers_refuted), a shared mesh glows or not depending on the iteration order (shared_mesh_lamp_refuted), and a light without an object dereferences a null pointer when sampled (uncarried_refuted)."
  },
  {
   "property": "C98",
   "status": "proved",
   "theorems": [
    "Feign.Warp.uniDisk_mean",
    "Feign.Warp.uniSph_mean",
    "Feign.Warp.uniSph_law",
    "Feign.Warp.uniSphCap_mean",
    "Feign.Warp.uniHemi_mean",
    "Feign.Warp.uniHemi_law",
    "Feign.Warp.cosHemi_mean",
    "Feign.Warp.cosHemi_law",
    "Feign.Warp.cosPowHemi_mean",
    "Feign.Warp.cosPowHemi_law",
    "Feign.Warp.uniTri_mean",
    "Feign.Warp.cosHemi_estimator",
    "Feign.Warp.uniSph_estimator",
    "Feign.Warp.uniDisk_law",
    "Feign.Warp.uniTri_law"
   ],
   "note": "Iterated integrals in spherical or plane coordinates for every function; laws as push-forward measures on directions for the sphere, hemisphere, cosine and power-cosine warps (exponents above -1). Exact real arithmetic; a uniform pair of random numbers is Lebesgue measure on the unit square.  Laws as push-forward measures on the plane for the disk and the triangle."
  },
  {
   "property": "C99",
   "status": "partial",
   "theorems": [
    "Feign.Bsdf.diffuse_bounce",
    "Feign.Bsdf.phong_law",
    "Feign.Bsdf.phong_bounce_partial",
    "Feign.Bsdf.phong_evaluates_negative_refuted",
    "Feign.Bsdf.glass_bounce",
    "Feign.Bsdf.blinn_density_refuted"
   ],
   "note": "Diffuse for every lighting; Phong's sampled directions follow the reported density exactly, and the estimate is right for light from above and not within Epsilon of (or beyond) a right angle from the mirror direction; glass wherever the reflectance is a number. Refuted beyond that for Phong (evaluation goes negative with odd exponents while sampling clamps) and, by C72, for Blinn. The random termination is C71."
  }
 ]
}