import Verif.Pool.TilesProps
import Verif.Pool.SchedProps
import Verif.Pool.LockProps
import Verif.Image.FilterProps
import Verif.Image.SplatProps
import Verif.Image.Parallel
import Verif.Sampling.DiscretePdfProps
import Verif.Math.VecProps
import Verif.Math.ComplexProps
import Verif.Sampling.LightSelectProps
import Verif.Math.BBoxProps
import Verif.Math.MatrixProps
import Verif.Api.TransformCmdProps
import Verif.Math.FrameProps
import Verif.Sampling.WarpProps
import Verif.Camera.PerspectiveProps
import Verif.Api.RegistryProps
import Verif.Api.CommuteProps
import Verif.Api.CommuteAll
import Verif.Api.FlushProps
import Verif.Api.Cleanup
import Verif.Sdf.ShapeProps
import Verif.Sdf.MarchProps
import Verif.Sdf.QueryProps
import Verif.Shapes.MeshProps
import Verif.Shapes.GridProps
import Verif.Shapes.GridTerrain
import Verif.Photons.ArrayProps
import Verif.Photons.ScatterProps
import Verif.Photons.EmitProps
import Verif.Photons.PowerProps
import Verif.Photons.ViewProps
import Verif.Scene.VisibilityProps
import Verif.Scene.SegmentProps
import Verif.Integrators.RouletteProps
import Verif.Integrators.TimerProps
import Verif.Bsdf.SpecularProps
import Verif.Bsdf.LobeProps
import Verif.Media.TransProps
import Verif.Media.SampleProps
import Verif.Media.Unbiased
import Verif.Media.PhaseProps
import Verif.Sampling.SamplerProps
import Verif.Tools.TesterProps
import Verif.Tools.RecordProps
import Verif.Textures.Props
import Verif.Parser.TraceProps
import Verif.Shapes.ObjProps
import Verif.Media.TransFuncProps
import Verif.Media.WiringProps
import Verif.Lights.EmitterProps
import Verif.Lights.NeeProps
import Verif.Integrators.VolProps
import Verif.Integrators.VolOnceProps
import Verif.Integrators.VolAgreeProps
import Verif.Integrators.VolTransProps
import Verif.Shaders.SphereProps
import Verif.Shaders.WireframeProps
import Verif.Scene.HitsProps
import Verif.Photons.RouletteProps
import Verif.Api.AreaLightsProps
import Verif.Sampling.WarpMeanProps
import Verif.Bsdf.BounceProps
import Verif.Media.PhaseLawProps
import Verif.Sampling.Stream
import Verif.Integrators.WalkProps
import Verif.Integrators.Carried
import Verif.Integrators.RoomProps
import Verif.Integrators.Lit
import Verif.Integrators.LitSpec
import Verif.Integrators.LitLemmas
import Verif.Integrators.LitProps
import Verif.Sampling.Repeat
import Verif.Image.Shoot
import Verif.Image.ShootSpec
import Verif.Image.ShootLemmas
import Verif.Image.FilmLemmas
import Verif.Image.ShootProps
import Verif.Image.ShootFilters
import Verif.Integrators.Left
import Verif.Integrators.LeftLemmas
import Verif.Integrators.Picture
import Verif.Image.Unbiased
import Verif.Integrators.Sky
import Verif.Integrators.SkyProps
import Verif.Integrators.Whitted
import Verif.Integrators.WhittedSpec
import Verif.Integrators.WhittedLemmas
import Verif.Integrators.WhittedProps
import Verif.Integrators.Mist
import Verif.Integrators.MistSpec
import Verif.Integrators.MistLemmas
import Verif.Integrators.MistMean
import Verif.Integrators.MistProps
import Verif.Integrators.MistLight
import Verif.Integrators.Fog
import Verif.Integrators.FogSpec
import Verif.Integrators.FogLemmas
import Verif.Integrators.FogProps
import Verif.Sampling.Limit
import Verif.Integrators.MistLeft
import Verif.Integrators.MistLeftLemmas
import Verif.Integrators.MistPicture
import Verif.Integrators.WhittedLeft
import Verif.Integrators.WhittedPicture
import Verif.Math.BBoxQueries
import Verif.Sampling.PlaneLaws
import Verif.Camera.LensSpec
import Verif.Camera.LensProps
import Verif.Camera.LensScenes
import Verif.Camera.LensRange
import Verif.Tools.Site
import Verif.Tools.SiteLemmas
import Verif.Tools.SiteProps
import Verif.Tools.Graphs
import Verif.Tools.GraphsProps
import Verif.Scene.BoundsProps
import Verif.Camera.TargetProps
import Verif.Integrators.DebugProps
import Verif.Integrators.SandboxProps
import Verif.Photons.EndsProps
import Verif.Scene.ShadowProps
import Verif.Sdf.NormalProps
import Verif.Bsdf.EnergyProps
import Verif.Scene.ReverseProps
import Verif.Image.SpoilProps
import Verif.Bsdf.PowersProps
import Verif.Image.RoundingProps
import Verif.Photons.OctreeProps
import Verif.Parser.ExecRenderProps
import Verif.Tools.TimingProps
import Verif.Integrators.LinearProps
import Verif.Photons.Relight
import Verif.Media.VdbProps
import Verif.Sdf.SelfShadow
import Verif.Sdf.Room
import Verif.Moved.Spec
import Verif.Moved.Lemmas
import Verif.Moved.SceneLemmas
import Verif.Moved.Props
import Verif.Scene.UnmetProps
import Verif.Sdf.UnmetProps
import Verif.Scaled.Spec
import Verif.Scaled.Lemmas
import Verif.Scaled.Props
import Verif.Camera.SizeProps
import Verif.Camera.SizeGauss
import Verif.Turned.Props
import Verif.Integrators.BouncesProps
import Verif.Lights.Nusselt
import Verif.Integrators.FacetScene
import Verif.Integrators.FurnaceProps
import Verif.Sampling.Partial
import Verif.Sdf.Measurable
import Verif.Sdf.RoomSpec
import Verif.Sdf.RoomLemmas
import Verif.Sdf.PictureProps
import Verif.Sdf.LimitedProps
import Verif.Parser.Drawn
import Verif.Parser.DrawnSpec
import Verif.Parser.DrawnLemmas
import Verif.Parser.DrawnProps
import Verif.Parser.DrawnPicture
import Verif.Parser.DrawnSeen
import Verif.Parser.DrawnScenes
import Verif.Sdf.Views
import Verif.Sdf.ViewsProps
import Verif.Parser.DrawnViews
import Verif.Integrators.SeenLemmas
import Verif.Sdf.WhittedPicture
import Verif.Parser.DrawnWhitted
import Verif.Sdf.Clear
import Verif.Math.Box2
import Verif.Math.Box2Props
import Verif.Math.Wave
import Verif.Math.WaveProps
import Verif.Sdf.EdgeViews
import Verif.Parser.DrawnEdges
import Verif.Sdf.Order
import Verif.Parser.DrawnOrder
import Verif.Sdf.LampOrder
import Verif.Parser.DrawnLamps
import Verif.Sdf.ViewOrder
import Verif.Parser.DrawnViewOrder
import Verif.Sdf.Copies
import Verif.Parser.DrawnCopies
import Verif.Sdf.LampSum
import Verif.Parser.DrawnLampSum
import Verif.Parser.DrawnLampPictures
import Verif.Image.Stops

/-!
# Axioms of the property theorems

One line per theorem listed in `MANIFEST.json`; each prints a subset of `propext`, `Classical.choice`,
`Quot.sound`.
-/

/-! C01 -/
#print axioms Feign.Pool.tiles_partition_image
#print axioms Feign.Pool.tiles_count
#print axioms Feign.Pool.tiles_nonpositive_width_diverges
#print axioms Feign.Pool.tiles_second_call_appends

/-! C02 -/
#print axioms Feign.Pool.scheduler_every_tile_once_partial
#print axioms Feign.Pool.scheduler_terminates_partial
#print axioms Feign.Pool.scheduler_correct_refuted
#print axioms Feign.Pool.scheduler_correct_iff
#print axioms Feign.Pool.scheduler_more_threads_than_tiles_ub
#print axioms Feign.Pool.scheduler_zero_threads_diverges

/-! C03 -/
#print axioms Feign.Image.render_in_bounds
#print axioms Feign.Image.renderTiles_in_bounds
#print axioms Feign.Image.inexact_width_out_of_bounds
#print axioms Feign.Image.render_single_in_bounds
#print axioms Feign.Image.wide_image_refuted

/-! C04 -/
#print axioms Feign.Image.parallel_eq_sequential
#print axioms Feign.Pool.interleaving_independent
#print axioms Feign.Pool.update_order_irrelevant
#print axioms Feign.Pool.mutual_exclusion
#print axioms Feign.Pool.no_deadlock
#print axioms Feign.Pool.steps_decrease
#print axioms Feign.Image.renderTiles_eq_render
#print axioms Feign.Image.renderTiles_keeps_old_contents

/-! C05 -/
#print axioms Feign.Image.render_pixel_eq
#print axioms Feign.Image.render_pixel_between
#print axioms Feign.Image.render_constant
#print axioms Feign.Image.default_filter_no_holes
#print axioms Feign.Image.box_filter_hole
#print axioms Feign.Image.render_nonneg
#print axioms Feign.Image.render_single_nonneg

/-! C06 -/
#print axioms Feign.Sampling.area_table_correct
#print axioms Feign.Sampling.area_selection_always_first
#print axioms Feign.Sampling.area_selection_eq
#print axioms Feign.Sampling.selects_by_area_iff
#print axioms Feign.Sampling.selects_by_area_refuted
#print axioms Feign.Sampling.selects_by_area_partial
#print axioms Feign.Sampling.area_selection_degenerate_first

/-! C07 -/
#print axioms Feign.Sampling.overloads_agree
#print axioms Feign.Sampling.index_is_table_entry_refuted
#print axioms Feign.Sampling.search_position_partial
#print axioms Feign.Sampling.reuse_agree

/-! C08 -/
#print axioms Feign.Sampling.reuse_in_range_refuted
#print axioms Feign.Sampling.reuse_in_range_partial

/-! C09 -/
#print axioms Feign.Sampling.naive_selection
#print axioms Feign.Sampling.naive_selection_measure
#print axioms Feign.Sampling.choose_emitter_correct
#print axioms Feign.Sampling.choose_emitter_any
#print axioms Feign.Sampling.naive_selection_rounded
#print axioms Feign.Image.naive_selection_single

/-! C10 -/
#print axioms Feign.Sampling.spatial_uses_containing_cell_refuted
#print axioms Feign.Sampling.spatial_single_cell_partial
#print axioms Feign.Sampling.used_cell_is_zero
#print axioms Feign.Sampling.spatial_always_first
#print axioms Feign.Sampling.cell_table_correct
#print axioms Feign.Sampling.cells_cover_scene_refuted
#print axioms Feign.Sampling.cells_cover_cube
#print axioms Feign.Sampling.cellIndex_injective
#print axioms Feign.Sampling.cell_weight_law

/-! C100 -/
#print axioms Feign.Integrators.path_mean
#print axioms Feign.Integrators.path_mean_grey
#print axioms Feign.Integrators.rendering_equation
#print axioms Feign.Integrators.path_mean_limit
#print axioms Feign.Integrators.diffuse_light
#print axioms Feign.Integrators.mirror_light
#print axioms Feign.Integrators.glass_light
#print axioms Feign.Integrators.lamps_direct
#print axioms Feign.Integrators.lamps_light

/-! C101 -/
#print axioms Feign.Image.render_converges
#print axioms Feign.Image.default_filter_converges
#print axioms Feign.Image.box_filter_converges
#print axioms Feign.Integrators.path_image
#print axioms Feign.Integrators.path_image_grey
#print axioms Feign.Integrators.vol_image
#print axioms Feign.Integrators.vol_image_bright
#print axioms Feign.Integrators.fog_image
#print axioms Feign.Integrators.milk_image

/-! C102 -/
#print axioms Feign.Image.box_mean_partial
#print axioms Feign.Image.one_sample_mean
#print axioms Feign.Image.mean_refuted

/-! C103 -/
#print axioms Feign.Integrators.ambient_mean
#print axioms Feign.Integrators.ambient_image

/-! C104 -/
#print axioms Feign.Integrators.whitted_depth
#print axioms Feign.Integrators.whitted_ends
#print axioms Feign.Integrators.whitted_mean_shown
#print axioms Feign.Integrators.whitted_mean_partial
#print axioms Feign.Integrators.whitted_mean_refuted
#print axioms Feign.Integrators.whitted_image_shown
#print axioms Feign.Integrators.whitted_image_partial
#print axioms Feign.Integrators.whitted_traces
#print axioms Feign.Integrators.whitted_image_refuted

/-! C105 -/
#print axioms Feign.Integrators.vol_mean_le
#print axioms Feign.Integrators.vol_mean_ge
#print axioms Feign.Integrators.vol_mean_bright
#print axioms Feign.Integrators.renders_of_solid
#print axioms Feign.Integrators.renders_of_few
#print axioms Feign.Integrators.light_step
#print axioms Feign.Integrators.light_escape
#print axioms Feign.Integrators.radiance_step
#print axioms Feign.Integrators.radiance_escape
#print axioms Feign.Integrators.vol_mean_tendsto
#print axioms Feign.Integrators.veiled_scatter
#print axioms Feign.Integrators.veiled_absorb
#print axioms Feign.Integrators.haze_fog
#print axioms Feign.Integrators.sheen_fog
#print axioms Feign.Integrators.fog_transfer_partial
#print axioms Feign.Integrators.fog_radiance_partial
#print axioms Feign.Integrators.fog_vacuum
#print axioms Feign.Integrators.fog_image_mean
#print axioms Feign.Integrators.fog_bounded
#print axioms Feign.Integrators.fog_image_bounded
#print axioms Feign.Integrators.fog_transfer_refuted
#print axioms Feign.Integrators.fog_colour_refuted

/-! C106 -/
#print axioms Feign.Camera.persp_measurable
#print axioms Feign.Camera.lens_light
#print axioms Feign.Camera.disk_area
#print axioms Feign.Camera.in_focus
#print axioms Feign.Camera.lensRay_line
#print axioms Feign.Camera.pinhole_light
#print axioms Feign.Camera.lens_image
#print axioms Feign.Camera.lens_path_image
#print axioms Feign.Camera.horizon_image

/-! C107 -/
#print axioms Feign.Camera.range_is_depth_partial
#print axioms Feign.Camera.range_is_depth_refuted
#print axioms Feign.Camera.lens_range

/-! C108 -/
#print axioms Feign.Tools.Site.rows_closed
#print axioms Feign.Tools.Site.home_page
#print axioms Feign.Tools.Site.results_site_partial
#print axioms Feign.Tools.Site.home_test_refuted
#print axioms Feign.Tools.Site.pos_error_image_refuted
#print axioms Feign.Tools.Site.pos_error_image_fixed

/-! C109 -/
#print axioms Feign.Tools.Site.references_kept_partial
#print axioms Feign.Tools.Site.references_kept_refuted
#print axioms Feign.Tools.Site.reference_run_undefined
#print axioms Feign.Tools.Site.references_then_tests_partial
#print axioms Feign.Tools.Site.unchanged_passes_partial
#print axioms Feign.Tools.Site.single_reference_partial
#print axioms Feign.Tools.Site.single_reference_missing
#print axioms Feign.Tools.Site.single_reference_refuted

/-! C11 -/
#print axioms Feign.Api.names_permanent
#print axioms Feign.Api.find_stable

/-! C110 -/
#print axioms Feign.Tools.Site.recording_exact
#print axioms Feign.Tools.Site.graphs_renewed_partial
#print axioms Feign.Tools.Site.old_graphs_stay_refuted
#print axioms Feign.Tools.Site.other_folder_deleted_refuted
#print axioms Feign.Tools.Site.blank_in_name_refuted

/-! C111 -/
#print axioms Feign.Bounds.bounds_enclose_partial
#print axioms Feign.Bounds.bounds_enclose_all
#print axioms Feign.Bounds.bounds_collapse
#print axioms Feign.Bounds.bounds_enclose_refuted
#print axioms Feign.Bounds.bounds_smallest_refuted

/-! C112 -/
#print axioms Feign.Camera.target_view_partial
#print axioms Feign.Camera.target_view_iff
#print axioms Feign.Camera.target_view_refuted
#print axioms Feign.Camera.target_scaled
#print axioms Feign.Camera.target_pixel_shape

/-! C113 -/
#print axioms Feign.Integrators.normal_view
#print axioms Feign.Integrators.nice_normal_view
#print axioms Feign.Integrators.cosine_view_partial
#print axioms Feign.Integrators.cosine_view_refuted
#print axioms Feign.Integrators.barycentric_view_partial
#print axioms Feign.Integrators.barycentric_sdf_refuted
#print axioms Feign.Integrators.normal_image
#print axioms Feign.Integrators.nice_normal_image
#print axioms Feign.Integrators.cosine_image_partial
#print axioms Feign.Integrators.barycentric_image

/-! C114 -/
#print axioms Feign.Integrators.sandbox_surface_partial
#print axioms Feign.Integrators.sandbox_medium_partial
#print axioms Feign.Integrators.sandbox_environment_refuted
#print axioms Feign.Integrators.sandbox_empty_refuted
#print axioms Feign.Integrators.sandbox_undefined_refuted
#print axioms Feign.Integrators.sandbox_second_null

/-! C115 -/
#print axioms Feign.Sdf.hit_normal_close_partial
#print axioms Feign.Sdf.hit_normal_flat_partial
#print axioms Feign.Sdf.hit_normal_sphere
#print axioms Feign.Sdf.hit_normal_cone
#print axioms Feign.Sdf.hit_normal_cylinder
#print axioms Feign.Sdf.hit_normal_cylinder_end
#print axioms Feign.Sdf.hit_normal_box
#print axioms Feign.Sdf.hit_normal_plane_value
#print axioms Feign.Sdf.hit_normal_plane_partial
#print axioms Feign.Sdf.hit_normal_axis_plane_partial
#print axioms Feign.Sdf.plane_normal_refuted
#print axioms Feign.Sdf.tilted_plane_normal_refuted

/-! C116 -/
#print axioms Feign.Bsdf.diffuse_reciprocal
#print axioms Feign.Bsdf.phong_reciprocal
#print axioms Feign.Bsdf.blinn_reciprocal_partial
#print axioms Feign.Bsdf.blinn_reciprocal_refuted
#print axioms Feign.Bsdf.mirror_reversible
#print axioms Feign.Bsdf.null_reversible
#print axioms Feign.Bsdf.glass_reversible_partial
#print axioms Feign.Bsdf.glass_reversible_refuted
#print axioms Feign.Bsdf.one_way_reversible_refuted
#print axioms Feign.Media.phase_reciprocal
#print axioms Feign.Shapes.mesh_reversible
#print axioms Feign.Shapes.mesh_blocks_reversible

/-! C117 -/
#print axioms Feign.Image.spoiled_iff
#print axioms Feign.Image.unspoiled_unchanged
#print axioms Feign.Image.spoiled_tiles_iff
#print axioms Feign.Image.reported_iff
#print axioms Feign.Image.damage_reported
#print axioms Feign.Image.weightless_sample_refuted
#print axioms Feign.Image.weightless_tile_refuted

/-! C118 -/
#print axioms Feign.Bsdf.phong_number_iff
#print axioms Feign.Bsdf.phong_natural
#print axioms Feign.Bsdf.phong_number_partial
#print axioms Feign.Bsdf.phong_number_refuted
#print axioms Feign.Bsdf.phong_sample_number
#print axioms Feign.Bsdf.phong_sample_natural
#print axioms Feign.Bsdf.blinn_number_iff
#print axioms Feign.Bsdf.blinn_natural
#print axioms Feign.Bsdf.blinn_number_partial
#print axioms Feign.Bsdf.blinn_number_refuted

/-! C119 -/
#print axioms Feign.Image.pixel_rounding
#print axioms Feign.Image.pixel_single
#print axioms Feign.Image.constant_single
#print axioms Feign.Image.saturated_refuted

/-! C12 -/
#print axioms Feign.Api.redefinition_rejected
#print axioms Feign.Api.null_bsdf_redeclared

/-! C120 -/
#print axioms Feign.Photons.traverse_leaf_partial
#print axioms Feign.Photons.traverse_returns_self
#print axioms Feign.Photons.octree_lookup_null
#print axioms Feign.Photons.octree_lookup_refuted
#print axioms Feign.Photons.traverse_new_undefined
#print axioms Feign.Photons.overlapping_children
#print axioms Feign.Photons.split_keeps

/-! C121 -/
#print axioms Feign.Parser.rendered_iff
#print axioms Feign.Parser.file_builds
#print axioms Feign.Parser.run_ends
#print axioms Feign.Parser.sections_any_order
#print axioms Feign.Parser.first_misfit
#print axioms Feign.Parser.assembles_iff
#print axioms Feign.Parser.default_names_refuted

/-! C122 -/
#print axioms Feign.Tools.timing_goes_through_iff
#print axioms Feign.Tools.time_recorded
#print axioms Feign.Tools.parts_le
#print axioms Feign.Tools.render_stages_le
#print axioms Feign.Tools.total_exact
#print axioms Feign.Tools.total_iff
#print axioms Feign.Tools.total_refuted
#print axioms Feign.Tools.timer_stalls_refuted
#print axioms Feign.Tools.report_aligned
#print axioms Feign.Tools.report_of_run
#print axioms Feign.Tools.report_misaligned_refuted
#print axioms Feign.Tools.record_handed_over
#print axioms Feign.Tools.record_dropped_refuted
#print axioms Feign.Tools.total_le

/-! C123 -/
#print axioms Feign.Integrators.path_superposition
#print axioms Feign.Integrators.whitted_superposition
#print axioms Feign.Integrators.vol_superposition
#print axioms Feign.Integrators.path_dark
#print axioms Feign.Integrators.path_tint
#print axioms Feign.Integrators.direct_superposition
#print axioms Feign.Integrators.emission_superposition
#print axioms Feign.Image.image_superposition
#print axioms Feign.Image.tiles_superposition
#print axioms Feign.Image.picture_superposition
#print axioms Feign.Integrators.room_superposition
#print axioms Feign.Integrators.traces_exist
#print axioms Feign.Integrators.separate_lamps_refuted
#print axioms Feign.Photons.photon_superposition_partial
#print axioms Feign.Photons.photon_tint_refuted
#print axioms Feign.Photons.view_superposition
#print axioms Feign.Photons.nearest_superposition
#print axioms Feign.Image.image_stops
#print axioms Feign.Image.tiles_stops
#print axioms Feign.Image.image_scale_refuted

/-! C124 -/
#print axioms Feign.Media.file_density
#print axioms Feign.Media.file_range
#print axioms Feign.Media.file_voxel
#print axioms Feign.Media.file_continuous
#print axioms Feign.Media.file_monotone
#print axioms Feign.Media.missing_file
#print axioms Feign.Media.no_density_grid_refuted
#print axioms Feign.Media.vdb_maximum_refuted
#print axioms Feign.Media.puff_density

/-! C125 -/
#print axioms Feign.Sdf.flat_no_self_shadow
#print axioms Feign.Sdf.box_no_self_shadow
#print axioms Feign.Sdf.sphere_no_self_shadow
#print axioms Feign.Sdf.lone_sphere_lit
#print axioms Feign.Sdf.curved_no_self_shadow_partial
#print axioms Feign.Shapes.face_no_self_shadow
#print axioms Feign.Sdf.wall_dark_refuted
#print axioms Feign.Shapes.face_behind_shadows_refuted

/-! C126 -/
#print axioms Feign.Shapes.triangle_moved
#print axioms Feign.Shapes.mesh_moved
#print axioms Feign.Shapes.mesh_hit_moved
#print axioms Feign.Sdf.scene_box_moved
#print axioms Feign.Sdf.sdf_moved
#print axioms Feign.Lights.light_moved
#print axioms Feign.Lights.light_areas_moved
#print axioms Feign.Lights.direct_light_moved
#print axioms Feign.Camera.camera_moved
#print axioms Feign.Camera.camera_moved_degenerate
#print axioms Feign.Integrators.path_moved
#print axioms Feign.Integrators.moved_picture
#print axioms Feign.Sdf.moved_sdf_picture
#print axioms Feign.far_away_refuted

/-! C127 -/
#print axioms Feign.Shapes.unmet_faces
#print axioms Feign.Scene.unmet_objects
#print axioms Feign.Sdf.unmet_shapes_partial
#print axioms Feign.Sdf.floor_hides_ball_refuted

/-! C128 -/
#print axioms Feign.Shapes.mesh_scaled_partial
#print axioms Feign.Shapes.mesh_hit_scaled
#print axioms Feign.Shapes.small_unit_refuted
#print axioms Feign.Sdf.distance_unique
#print axioms Feign.Sdf.shape_scaled
#print axioms Feign.Sdf.floor_unit_refuted
#print axioms Feign.Lights.light_scaled
#print axioms Feign.Lights.direct_light_scaled
#print axioms Feign.Lights.light_table_scaled
#print axioms Feign.Lights.same_power_refuted
#print axioms Feign.Camera.camera_scaled
#print axioms Feign.Integrators.path_scaled
#print axioms Feign.Integrators.scaled_picture

/-! C129 -/
#print axioms Feign.Camera.same_proportions
#print axioms Feign.Camera.taller_picture
#print axioms Feign.Image.finer_mean_partial
#print axioms Feign.Camera.finer_view_partial
#print axioms Feign.Image.finer_gauss_refuted
#print axioms Feign.Image.finer_gauss

/-! C13 -/
#print axioms Feign.Api.declarations_any_order
#print axioms Feign.Api.declarations_permute
#print axioms Feign.Api.shared_emitter_refuted

/-! C130 -/
#print axioms Feign.rotate_turns
#print axioms Feign.Shapes.mesh_turned
#print axioms Feign.Shapes.mesh_hit_turned
#print axioms Feign.Shapes.mirror_inside_out
#print axioms Feign.Sdf.shape_turned
#print axioms Feign.Sdf.box_turned_refuted
#print axioms Feign.Lights.light_turned
#print axioms Feign.Lights.light_table_turned
#print axioms Feign.Camera.camera_turned
#print axioms Feign.Integrators.path_turned
#print axioms Feign.Integrators.turned_picture
#print axioms Feign.Integrators.same_numbers_refuted

/-! C131 -/
#print axioms Feign.Integrators.path_more_bounces
#print axioms Feign.Integrators.path_few_bounces
#print axioms Feign.Integrators.vol_more_bounces_partial
#print axioms Feign.Integrators.more_bounces_picture
#print axioms Feign.Integrators.light_least
#print axioms Feign.Integrators.light_unique
#print axioms Feign.Integrators.missing_light
#print axioms Feign.Integrators.missing_in_picture
#print axioms Feign.Integrators.room_sends
#print axioms Feign.Integrators.darker_pixel_refuted

/-! C132 -/
#print axioms Feign.Integrators.lamps_agree
#print axioms Feign.Integrators.light_split
#print axioms Feign.Integrators.physical_light
#print axioms Feign.Integrators.physical_least
#print axioms Feign.Integrators.physical_unique
#print axioms Feign.Integrators.physical_picture
#print axioms Feign.Integrators.thin_gap_refuted

/-! C133 -/
#print axioms Feign.Integrators.no_brighter_ray
#print axioms Feign.Integrators.no_brighter_picture
#print axioms Feign.Integrators.furnace_ray
#print axioms Feign.Integrators.furnace_picture
#print axioms Feign.Integrators.furnace_behind_refuted

/-! C134 -/
#print axioms Feign.Sdf.sdf_picture
#print axioms Feign.Sdf.sdf_equation
#print axioms Feign.Sdf.sdf_surfaces
#print axioms Feign.Sdf.sdf_glass
#print axioms Feign.Sdf.sdf_picture_limited

/-! C135 -/
#print axioms Feign.Parser.file_drawn
#print axioms Feign.Parser.file_picture
#print axioms Feign.Parser.file_picture_solves
#print axioms Feign.Parser.transforms_ignored
#print axioms Feign.Parser.moved_object_refuted
#print axioms Feign.Parser.drawn_light
#print axioms Feign.Parser.drawn_camera

/-! C136 -/
#print axioms Feign.Parser.file_found
#print axioms Feign.Parser.file_ambient
#print axioms Feign.Parser.file_normals
#print axioms Feign.Parser.file_nice_normals
#print axioms Feign.Sdf.sdf_ambient
#print axioms Feign.Sdf.sdf_normals
#print axioms Feign.Sdf.sdf_nice_normals

/-! C137 -/
#print axioms Feign.Parser.file_whitted_partial
#print axioms Feign.Parser.drawn_seen
#print axioms Feign.Sdf.sdf_whitted_partial
#print axioms Feign.Sdf.sdf_seen

/-! C138 -/
#print axioms Feign.Sdf.clear_ball_refuted
#print axioms Feign.Sdf.clear_head_on
#print axioms Feign.Sdf.head_on_again
#print axioms Feign.Sdf.inside_stops
#print axioms Feign.Sdf.creeping
#print axioms Feign.Sdf.ball_shows

/-! C139 -/
#print axioms Feign.B2.grown_smallest
#print axioms Feign.B2.merge_smallest
#print axioms Feign.B2.clip_contains
#print axioms Feign.B2.box_in_box
#print axioms Feign.B2.axes
#print axioms Feign.B2.overlaps_iff
#print axioms Feign.B2.overlaps_refuted
#print axioms Feign.B2.overlaps_partial
#print axioms Feign.B2.center_refuted
#print axioms Feign.B2.int_box_refuted
#print axioms Feign.B2.int_box_partial

/-! C14 -/
#print axioms Feign.Api.repeated_object_refuted
#print axioms Feign.Api.repeated_object_partial

/-! C140 -/
#print axioms Feign.Wave.square_partial
#print axioms Feign.Wave.triangle_partial
#print axioms Feign.Wave.start_refuted
#print axioms Feign.Wave.crest_refuted

/-! C141 -/
#print axioms Feign.Parser.file_cosine_partial
#print axioms Feign.Parser.file_barycentric
#print axioms Feign.Sdf.sdf_cosine_partial
#print axioms Feign.Sdf.sdf_barycentric
#print axioms Feign.Sdf.cosine_ball_refuted
#print axioms Feign.Sdf.edges_refuted

/-! C142 -/
#print axioms Feign.Sdf.order_free_partial
#print axioms Feign.Sdf.told_apart
#print axioms Feign.Sdf.order_refuted
#print axioms Feign.Parser.file_order_free_partial
#print axioms Feign.Sdf.view_order_free
#print axioms Feign.Parser.file_view_order_free

/-! C143 -/
#print axioms Feign.Sdf.lamp_order_free
#print axioms Feign.Parser.file_lamps_free_partial
#print axioms Feign.Integrators.lamp_samples_refuted

/-! C144 -/
#print axioms Feign.Sdf.copies_free_partial
#print axioms Feign.Sdf.alike_copies_free
#print axioms Feign.Sdf.view_copies_free
#print axioms Feign.Parser.file_copies_free_partial

/-! C145 -/
#print axioms Feign.Sdf.lamp_sum
#print axioms Feign.Parser.file_lamp_sum_partial
#print axioms Feign.Integrators.shine_merge
#print axioms Feign.Integrators.shine_dark
#print axioms Feign.Parser.file_lamp_pictures_partial

/-! C15 -/
#print axioms Feign.Api.single_scene_partial
#print axioms Feign.Api.second_scene_mode_refuted

/-! C16 -/
#print axioms Feign.Api.failed_call_poisons
#print axioms Feign.Api.failed_call_ignored_without_timers

/-! C17 -/
#print axioms Feign.Api.transform_history
#print axioms Feign.Api.transform_history_improper

/-! C18 -/
#print axioms Feign.Api.instance_resolves_iff
#print axioms Feign.Api.instances_resolve_partial
#print axioms Feign.Api.shared_mesh_refuted

/-! C19 -/
#print axioms Feign.det_correct
#print axioms Feign.matrix_inverse_two_sided

/-! C20 -/
#print axioms Feign.Xf.mul_point
#print axioms Feign.Xf.mul_vec
#print axioms Feign.Xf.mul_normal
#print axioms Feign.Xf.inverse_undoes
#print axioms Feign.Xf.ray_points
#print axioms Feign.Xf.normal_dot_vec
#print axioms Feign.Xf.valid_mul
#print axioms Feign.Xf.valid_inverse
#print axioms Feign.Xf.valid_ofMatrix

/-! C21 -/
#print axioms Feign.rotateCS_rigid
#print axioms Feign.rotate_rigid
#print axioms Feign.rotate_direction

/-! C22 -/
#print axioms Feign.Frame.frame_orthonormal
#print axioms Feign.Frame.frame_round_trip
#print axioms Feign.Frame.ofNormal_eq_none_iff
#print axioms Feign.Frame.sphericalDirection_unit

/-! C23 -/
#print axioms Feign.B3.intersect_iff
#print axioms Feign.B3.intersect_params
#print axioms Feign.B3.intersect_entry_attained
#print axioms Feign.B3.intersect_swap
#print axioms Feign.B3.intersect_inverted_box

/-! C24 -/
#print axioms Feign.B3.grow_from_empty
#print axioms Feign.B3.grow_encloses
#print axioms Feign.B3.grow_minimal
#print axioms Feign.B3.grow_minimal_points
#print axioms Feign.B3.merge_lub
#print axioms Feign.B3.overlaps_refuted
#print axioms Feign.B3.containsBox_iff
#print axioms Feign.B3.containsBoxB_iff
#print axioms Feign.B3.overlaps_iff
#print axioms Feign.B3.overlapExcl_iff
#print axioms Feign.B3.center_symmetric
#print axioms Feign.B3.center_mem
#print axioms Feign.B3.surfaceArea_edges

/-! C25 -/
#print axioms Feign.B3.octants_cover
#print axioms Feign.B3.octants_disjoint
#print axioms Feign.B3.octants_equal
#print axioms Feign.B3.octants_size
#print axioms Feign.B3.octants_surface

/-! C26 -/
#print axioms Feign.Sdf.march_sound
#print axioms Feign.Sdf.hit_near_surface
#print axioms Feign.Sdf.intersect_finds
#print axioms Feign.Sdf.spheres_found_partial
#print axioms Feign.Sdf.cylinder_clipped_refuted

/-! C27 -/
#print axioms Feign.Sdf.closest_shape

/-! C28 -/
#print axioms Feign.Sdf.primitives_exact
#print axioms Feign.Sdf.sphere_signed_distance
#print axioms Feign.Sdf.plane_signed_distance
#print axioms Feign.Sdf.box_signed_distance
#print axioms Feign.Sdf.cylinder_signed_distance
#print axioms Feign.Sdf.cone_signed_distance
#print axioms Feign.Sdf.plane_signed_distance_refuted
#print axioms Feign.Sdf.box_orientation_refuted
#print axioms Feign.Sdf.degenerate_axis

/-! C29 -/
#print axioms Feign.Sdf.sphere_box_contains_partial
#print axioms Feign.Sdf.sphere_box_tight
#print axioms Feign.Sdf.plane_box_refuted
#print axioms Feign.Sdf.box_box_refuted
#print axioms Feign.Sdf.cylinder_box_refuted
#print axioms Feign.Sdf.cone_box_refuted

/-! C30 -/
#print axioms Feign.Shapes.mesh_closest_hit
#print axioms Feign.Shapes.mesh_bad_face

/-! C31 -/
#print axioms Feign.Shapes.triangle_only_refuted
#print axioms Feign.Shapes.triangle_test_partial
#print axioms Feign.Shapes.triangle_found
#print axioms Feign.Shapes.small_triangle_missed

/-! C32 -/
#print axioms Feign.Shapes.grid_well_formed
#print axioms Feign.Shapes.grid_covers
#print axioms Feign.Shapes.grid_no_overlap
#print axioms Feign.Shapes.grid_normals_up

/-! C33 -/
#print axioms Feign.Photons.nearest_photons
#print axioms Feign.Photons.nearest_photons_zero_refuted

/-! C34 -/
#print axioms Feign.Photons.radius_estimate_partial
#print axioms Feign.Photons.radius_estimate_iff
#print axioms Feign.Photons.radius_estimate_refuted
#print axioms Feign.Photons.near_photon_partial
#print axioms Feign.Photons.near_photon_iff
#print axioms Feign.Photons.nearest_estimate_partial
#print axioms Feign.Photons.nearest_estimate_refuted
#print axioms Feign.Photons.nearest_estimate_ub

/-! C35 -/
#print axioms Feign.Photons.photon_buffer_partial
#print axioms Feign.Photons.photon_buffer_refuted
#print axioms Feign.Photons.photon_buffer_sufficient

/-! C36 -/
#print axioms Feign.Scene.non_null_first_partial
#print axioms Feign.Scene.non_null_terminates
#print axioms Feign.Scene.non_null_skipped
#print axioms Feign.Scene.non_null_first_refuted
#print axioms Feign.Scene.firstOf_isFirst

/-! C37 -/
#print axioms Feign.Integrators.path_radiance
#print axioms Feign.Integrators.path_bounded
#print axioms Feign.Integrators.path_nonneg

/-! C38 -/
#print axioms Feign.Integrators.path_radiance_once_partial
#print axioms Feign.Integrators.emission_counted_iff_partial
#print axioms Feign.Integrators.emission_counted_once_partial
#print axioms Feign.Integrators.wireframe_emission_twice_refuted
#print axioms Feign.Integrators.null_material_loses_light_refuted
#print axioms Feign.Integrators.whitted_emission_twice_refuted
#print axioms Feign.Integrators.whitted_emission_dropped_refuted
#print axioms Feign.Integrators.whitted_specular_partial

/-! C39 -/
#print axioms Feign.Integrators.ambient_occlusion
#print axioms Feign.Integrators.ambOcc_eq

/-! C40 -/
#print axioms Feign.Integrators.path_timers
#print axioms Feign.Integrators.whitted_timers
#print axioms Feign.Integrators.other_timers
#print axioms Feign.Integrators.render_timers
#print axioms Feign.Integrators.pool_timers_refuted

/-! C41 -/
#print axioms Feign.Bsdf.mirror_law
#print axioms Feign.Bsdf.dielectric_partial
#print axioms Feign.Bsdf.one_way_law
#print axioms Feign.Bsdf.dielectric_unit_refuted
#print axioms Feign.Bsdf.dielectric_cross_refuted

/-! C42 -/
#print axioms Feign.Bsdf.fresnel_partial
#print axioms Feign.Bsdf.fresnel_eq
#print axioms Feign.Bsdf.fresnel_angle_refuted
#print axioms Feign.Bsdf.fresnel_value_refuted
#print axioms Feign.Bsdf.fresnel_grazing_refuted

/-! C43 -/
#print axioms Feign.Media.density_le_max
#print axioms Feign.Media.mandelbrot_range
#print axioms Feign.Media.density_negative_refuted
#print axioms Feign.Media.extinction_exceeds_max_refuted

/-! C44 -/
#print axioms Feign.Media.transmittance_range
#print axioms Feign.Media.ratio_returns_iff
#print axioms Feign.Media.march_returns
#print axioms Feign.Media.ratio_negative_majorant_refuted
#print axioms Feign.Media.march_stuck_refuted
#print axioms Feign.Media.ratio_zero_majorant_refuted

/-! C45 -/
#print axioms Feign.Media.sample_after_start_partial
#print axioms Feign.Media.scatter_extinction
#print axioms Feign.Media.sample_weight
#print axioms Feign.Media.analytic_distribution
#print axioms Feign.Media.sample_before_start_refuted
#print axioms Feign.Media.analytic_transmittance_refuted
#print axioms Feign.Media.colour_minimum_refuted

/-! C46 -/
#print axioms Feign.Media.homogeneous
#print axioms Feign.Media.march_step_refuted
#print axioms Feign.Media.sigma_squared_refuted

/-! C47 -/
#print axioms Feign.Media.phase_normalised
#print axioms Feign.Media.phase_nonneg_partial
#print axioms Feign.Media.phase_sample
#print axioms Feign.Media.eddington_negative_refuted
#print axioms Feign.Media.ellipsoidal_zero_refuted

/-! C48 -/
#print axioms Feign.Warp.uniDisk_domain
#print axioms Feign.Warp.uniSph_domain
#print axioms Feign.Warp.uniSphCap_domain
#print axioms Feign.Warp.uniHemi_domain
#print axioms Feign.Warp.cosHemi_domain
#print axioms Feign.Warp.cosPowHemi_domain_partial
#print axioms Feign.Warp.cosPow_zero_density_refuted
#print axioms Feign.Warp.uniTri_domain_partial
#print axioms Feign.Warp.uniTriPdf_outside_refuted

/-! C49 -/
#print axioms Feign.Image.box_wellBehaved
#print axioms Feign.Image.gauss_wellBehaved
#print axioms Feign.Image.gauss_evaluate
#print axioms Feign.Image.gauss_pos_iff

/-! C50 -/
#print axioms Feign.Sampling.reseed_stream
#print axioms Feign.Sampling.reseed_forgets
#print axioms Feign.Sampling.worker_copies
#print axioms Feign.Sampling.pool_samplers_deterministic
#print axioms Feign.Sampling.pool_image_deterministic
#print axioms Feign.Sampling.plain_copy_loses_count
#print axioms Feign.Sampling.copies_keep_count_refuted
#print axioms Feign.Sampling.negative_count_refuted
#print axioms Feign.Sampling.reseed_own_restarts

/-! C51 -/
#print axioms Feign.Tex.lookup_inside_partial
#print axioms Feign.Tex.lookup_cell
#print axioms Feign.Tex.inexact_size_refuted
#print axioms Feign.Tex.empty_image_ub
#print axioms Feign.Tex.nan_coordinate_ub
#print axioms Feign.Tex.inexact_height_refuted

/-! C52 -/
#print axioms Feign.Parser.section_call
#print axioms Feign.Parser.media_optics_fixed
#print axioms Feign.Parser.sampler_call
#print axioms Feign.Parser.integrator_call
#print axioms Feign.Parser.grid_call
#print axioms Feign.Parser.box_call
#print axioms Feign.Parser.texture_call_partial
#print axioms Feign.Parser.texture_scale_ignored
#print axioms Feign.Parser.texture_proxy_ub
#print axioms Feign.Parser.texture_call_refuted
#print axioms Feign.Parser.emitter_call
#print axioms Feign.Parser.object_call
#print axioms Feign.Parser.document_ok
#print axioms Feign.Parser.document_stops
#print axioms Feign.Parser.rendered_iff_accepted
#print axioms Feign.Parser.document_transforms
#print axioms Feign.Parser.unknown_section_aborts
#print axioms Feign.Parser.unknown_section_not_rendered
#print axioms Feign.Parser.unsupported_type_partial
#print axioms Feign.Parser.unsupported_type_not_rendered_partial
#print axioms Feign.Parser.unsupported_accel_ignored
#print axioms Feign.Parser.unsupported_type_refuted
#print axioms Feign.Parser.missing_file_ub
#print axioms Feign.Parser.not_an_object_ub
#print axioms Feign.Parser.timings_partial

/-! C53 -/
#print axioms Feign.vec_compare_refuted
#print axioms Feign.vec2_compare_refuted
#print axioms Feign.vec_compare_partial
#print axioms Feign.vec_compare_consistent_iff

/-! C54 -/
#print axioms Feign.complex_sub_assign_refuted
#print axioms Feign.complex_sub_assign_iff
#print axioms Feign.complex_laws_partial
#print axioms Feign.complex3_laws
#print axioms Feign.complex3_norm_not_multiplicative

/-! C55 -/
#print axioms Feign.Tools.run_all_partial
#print axioms Feign.Tools.nan_error_passes_refuted
#print axioms Feign.Tools.missing_directory_passes
#print axioms Feign.Tools.run_test_inverted
#print axioms Feign.Tools.single_test_refuted
#print axioms Feign.Tools.single_reference_reports_failure
#print axioms Feign.Tools.all_references_report_success
#print axioms Feign.Tools.test_file_names_injective
#print axioms Feign.Tools.test_file_name_width

/-! C56 -/
#print axioms Feign.Tools.record_round_trip_partial
#print axioms Feign.Tools.parse_never_returns
#print axioms Feign.Tools.round_trip_refuted
#print axioms Feign.Tools.date_exchanged
#print axioms Feign.Tools.short_line_ub
#print axioms Feign.Tools.stofExact_fmtInt
#print axioms Feign.Tools.stofExact_fmtFixed
#print axioms Feign.Tools.record_dates_truncate

/-! C57 -/
#print axioms Feign.vec_max_refuted
#print axioms Feign.vec_reductions_partial
#print axioms Feign.vec_max_correct_iff
#print axioms Feign.vec_maxIndex_partial
#print axioms Feign.vec_maxIndex_refuted

/-! C58 -/
#print axioms Feign.Camera.lookAt_frame
#print axioms Feign.Camera.lookAt_degenerate
#print axioms Feign.Camera.cameraToWorld_spec
#print axioms Feign.Camera.pinhole_ray
#print axioms Feign.Camera.centre_ray_hits_target

/-! C59 -/
#print axioms Feign.Camera.lens_focus

/-! C60 -/
#print axioms Feign.Warp.uniDisk_density
#print axioms Feign.Warp.uniSph_density
#print axioms Feign.Warp.uniSphCap_density
#print axioms Feign.Warp.uniHemi_density
#print axioms Feign.Warp.cosHemi_density
#print axioms Feign.Warp.cosPowHemi_density
#print axioms Feign.Warp.uniTri_density

/-! C61 -/
#print axioms Feign.Api.complete_renders
#print axioms Feign.Api.undefined_mesh_throws_partial
#print axioms Feign.Api.undefined_emitter_refuted
#print axioms Feign.Api.undefined_camera_refuted
#print axioms Feign.Api.undefined_filter_refuted

/-! C62 -/
#print axioms Feign.Api.placement
#print axioms Feign.Api.placement_partial
#print axioms Feign.Api.placement_refuted

/-! C63 -/
#print axioms Feign.Api.cleanup_partial
#print axioms Feign.Api.cleanup_leak_refuted

/-! C64 -/
#print axioms Feign.Shapes.hit_position
#print axioms Feign.Shapes.geom_normal
#print axioms Feign.Shapes.hit_uv_between
#print axioms Feign.Shapes.hit_uv_follows
#print axioms Feign.Shapes.hit_uv_none
#print axioms Feign.Shapes.shading_normal_follows
#print axioms Feign.Shapes.shading_normal_none

/-! C65 -/
#print axioms Feign.Shapes.face_box_contains
#print axioms Feign.Shapes.mesh_box
#print axioms Feign.Shapes.face_centroid
#print axioms Feign.Shapes.mesh_centroid
#print axioms Feign.Shapes.face_area

/-! C66 -/
#print axioms Feign.Shapes.terrain_faces_up
#print axioms Feign.Shapes.grid_vertex_used
#print axioms Feign.Shapes.terrain_normals
#print axioms Feign.Shapes.terrain_final_normals

/-! C67 -/
#print axioms Feign.Photons.photon_power_partial
#print axioms Feign.Photons.photon_power_refuted
#print axioms Feign.Photons.photon_power_green_wall_refuted

/-! C68 -/
#print axioms Feign.Photons.photon_tracing_ends
#print axioms Feign.Photons.photon_tracing_diverges
#print axioms Feign.Photons.photon_tracing_no_bounces
#print axioms Feign.Photons.photon_tracing_ends_iff
#print axioms Feign.Photons.photon_tracing_stops
#print axioms Feign.Photons.photon_tracing_mirrors_refuted

/-! C69 -/
#print axioms Feign.Scene.shadow_visibility
#print axioms Feign.Scene.shadow_terminates
#print axioms Feign.Scene.shadow_safe
#print axioms Feign.Scene.shadow_no_boundary_ub
#print axioms Feign.Scene.shadow_answer
#print axioms Feign.Scene.shadow_exact_partial
#print axioms Feign.Scene.shadow_exact_refuted
#print axioms Feign.Scene.shadow_null_surface_refuted

/-! C70 -/
#print axioms Feign.Scene.transmittance_product
#print axioms Feign.Scene.transmittance_bounds
#print axioms Feign.Scene.transmittance_empty
#print axioms Feign.Scene.transmittance_one_medium_partial
#print axioms Feign.Scene.transmittance_two_media_refuted
#print axioms Feign.Scene.transmittance_inside
#print axioms Feign.Scene.transmittance_boundaries
#print axioms Feign.Scene.transmittance_start_inside
#print axioms Feign.Scene.transmittance_gaps
#print axioms Feign.Scene.transmittance_right_iff

/-! C71 -/
#print axioms Feign.Integrators.roulette_keeps_expectation
#print axioms Feign.Integrators.survival_probability
#print axioms Feign.Integrators.whitted_unbounded_refuted

/-! C72 -/
#print axioms Feign.Bsdf.diffuse_consistent
#print axioms Feign.Bsdf.phong_sample
#print axioms Feign.Bsdf.phong_law
#print axioms Feign.Bsdf.blinn_density_refuted
#print axioms Feign.Bsdf.blinn_albedo
#print axioms Feign.Bsdf.blinn_value
#print axioms Feign.Bsdf.blinn_density

/-! C73 -/
#print axioms Feign.Bsdf.diffuse_energy
#print axioms Feign.Bsdf.phong_energy_refuted
#print axioms Feign.Bsdf.phong_leaks_refuted
#print axioms Feign.Bsdf.phong_evaluates_negative_refuted
#print axioms Feign.Bsdf.blinn_leaks_refuted
#print axioms Feign.Bsdf.diffuse_energy_everywhere
#print axioms Feign.Bsdf.phong_energy_partial
#print axioms Feign.Bsdf.blinn_energy
#print axioms Feign.Bsdf.blinn_energy_refuted

/-! C74 -/
#print axioms Feign.Media.ratio_tracking_mean
#print axioms Feign.Media.ratio_tracking_unbiased
#print axioms Feign.Media.delta_tracking_distribution
#print axioms Feign.Media.density_steps
#print axioms Feign.Media.medium_ratio_unbiased
#print axioms Feign.Media.ratio_tracking_biased_refuted

/-! C75 -/
#print axioms Feign.Media.hg_drawn
#print axioms Feign.Media.rayleigh_drawn
#print axioms Feign.Media.ellipsoidal_drawn
#print axioms Feign.Media.eddington_drawn
#print axioms Feign.Media.hg_density_refuted
#print axioms Feign.Media.ellipsoidal_density_refuted
#print axioms Feign.Media.eddington_density_refuted
#print axioms Feign.Media.isotropic_directions
#print axioms Feign.Media.rayleigh_directions
#print axioms Feign.Media.hg_directions
#print axioms Feign.Media.ellipsoidal_directions
#print axioms Feign.Media.eddington_directions

/-! C76 -/
#print axioms Feign.Sampling.configured_seed_ignored
#print axioms Feign.Sampling.seed_is_used_refuted
#print axioms Feign.Sampling.preprocessed_seed_is_used_partial

/-! C77 -/
#print axioms Feign.Tools.unknown_arguments_skipped
#print axioms Feign.Tools.last_scene_wins
#print axioms Feign.Tools.exit_status_all
#print axioms Feign.Tools.exit_status_single_inverted
#print axioms Feign.Tools.exit_status_single_refuted
#print axioms Feign.Tools.missing_value_ub
#print axioms Feign.Tools.exit_status_references
#print axioms Feign.Tools.exit_status_values

/-! C78 -/
#print axioms Feign.Tools.average_is_mean

/-! C79 -/
#print axioms Feign.Tex.env_coords
#print axioms Feign.Tex.env_lookup
#print axioms Feign.Tex.env_long_direction_ub

/-! C80 -/
#print axioms Feign.Tex.bake_spec
#print axioms Feign.Tex.bake_image_texture
#print axioms Feign.Tex.sin_texture_bounded
#print axioms Feign.Tex.sin_texture_blue_constant
#print axioms Feign.Tex.sin_texture_pattern

/-! C81 -/
#print axioms Feign.Shapes.obj_reads
#print axioms Feign.Shapes.obj_round_trip
#print axioms Feign.Shapes.faces_are_triangles
#print axioms Feign.Shapes.corner_no_coord
#print axioms Feign.Shapes.corner_vertex_only
#print axioms Feign.Shapes.corner_no_normal
#print axioms Feign.Shapes.index_zero
#print axioms Feign.Shapes.index_negative
#print axioms Feign.Shapes.short_vertex
#print axioms Feign.Shapes.accepted_faces_refuted
#print axioms Feign.Shapes.missing_obj_throws
#print axioms Feign.Shapes.obj_normal_unit
#print axioms Feign.Shapes.obj_normal_flip

/-! C82 -/
#print axioms Feign.Media.survive_zero
#print axioms Feign.Media.survive_range
#print axioms Feign.Media.survive_antitone_partial
#print axioms Feign.Media.survive_surface
#print axioms Feign.Media.survive_medium_refuted
#print axioms Feign.Media.survive_tendsto
#print axioms Feign.Media.density_deriv_partial
#print axioms Feign.Media.density_refuted
#print axioms Feign.Media.lin_medium_mass
#print axioms Feign.Media.density_nonneg_partial
#print axioms Feign.Media.channels
#print axioms Feign.Media.channels_refuted
#print axioms Feign.Media.reciprocity
#print axioms Feign.Media.eval_symm
#print axioms Feign.Media.eval_eq
#print axioms Feign.Media.exp_share
#print axioms Feign.Media.lin_medium_share
#print axioms Feign.Media.lin_surface_share
#print axioms Feign.Media.lin_surface_share_partial
#print axioms Feign.Media.lin_surface_refuted
#print axioms Feign.Media.davis_search_ends
#print axioms Feign.Media.davis_search_partial
#print axioms Feign.Media.davis_share_partial
#print axioms Feign.Media.davis_channels

/-! C83 -/
#print axioms Feign.Lights.point_light
#print axioms Feign.Lights.point_light_at_light
#print axioms Feign.Lights.spot_sample
#print axioms Feign.Lights.spot_cone_partial
#print axioms Feign.Lights.spot_cone_refuted
#print axioms Feign.Lights.spot_no_falloff
#print axioms Feign.Lights.spot_falloff_refuted
#print axioms Feign.Lights.directional_partial
#print axioms Feign.Lights.directional_unit_refuted
#print axioms Feign.Lights.dirMesh_direction_refuted
#print axioms Feign.Lights.dirMesh_front_partial
#print axioms Feign.Lights.mesh_first_triangle
#print axioms Feign.Lights.mesh_degenerate_first
#print axioms Feign.Lights.mesh_average_partial
#print axioms Feign.Lights.mesh_on_light_refuted
#print axioms Feign.Lights.mesh_emission_consistent

/-! C84 -/
#print axioms Feign.Lights.all_lights
#print axioms Feign.Lights.one_light_average
#print axioms Feign.Lights.modes_agree_partial
#print axioms Feign.Lights.modes_normal_refuted
#print axioms Feign.Lights.modes_own_refuted
#print axioms Feign.Lights.point_direct
#print axioms Feign.Lights.light_nonneg_partial
#print axioms Feign.Lights.point_good
#print axioms Feign.Lights.negative_light_refuted
#print axioms Feign.Lights.spot_undefined
#print axioms Feign.Lights.directional_undefined
#print axioms Feign.Lights.dirMesh_undefined
#print axioms Feign.Lights.multi_first_only
#print axioms Feign.Lights.multi_average_refuted
#print axioms Feign.Lights.dirMesh_direct
#print axioms Feign.Lights.multi_light

/-! C85 -/
#print axioms Feign.Integrators.Vol.vol_radiance
#print axioms Feign.Integrators.Vol.vol_running_iff
#print axioms Feign.Integrators.Vol.vol_returns
#print axioms Feign.Integrators.Vol.vol_fuel
#print axioms Feign.Integrators.Vol.vol_endless_refuted
#print axioms Feign.Integrators.Vol.medium_after_boundary
#print axioms Feign.Integrators.Vol.medium_before_boundaries
#print axioms Feign.Integrators.Vol.glass_boundary_refuted
#print axioms Feign.Integrators.Vol.vol_nonneg_partial
#print axioms Feign.Integrators.Vol.vol_no_zero_division_partial
#print axioms Feign.Integrators.Vol.vol_roulette_partial
#print axioms Feign.Integrators.Vol.vol_zero_draw_refuted

/-! C86 -/
#print axioms Feign.Integrators.Vol.vol_eq_path

/-! C87 -/
#print axioms Feign.Integrators.Vol.light_once_partial
#print axioms Feign.Integrators.Vol.vol_radiance_once_partial
#print axioms Feign.Integrators.Vol.first_scatter_emission_twice_refuted
#print axioms Feign.Integrators.Vol.leftover_samples_refuted
#print axioms Feign.Integrators.Vol.phase_of_wrong_direction_refuted
#print axioms Feign.Integrators.Vol.light_behind_fog_refuted

/-! C88 -/
#print axioms Feign.Integrators.trans_view_partial
#print axioms Feign.Integrators.trans_view_clear
#print axioms Feign.Integrators.trans_view_inside_refuted
#print axioms Feign.Integrators.trans_view_open_refuted
#print axioms Feign.Integrators.trans_view_no_inside_refuted

/-! C89 -/
#print axioms Feign.Shaders.sphere_shader_refuted
#print axioms Feign.Shaders.sphere_shader_partial
#print axioms Feign.Shaders.toSphere_ends
#print axioms Feign.Shaders.sphere_normals_unit
#print axioms Feign.Shaders.shortest_side_partial
#print axioms Feign.Shaders.shortest_side_refuted
#print axioms Feign.Shaders.normal_index_refuted
#print axioms Feign.Shaders.preProcess_plain

/-! C90 -/
#print axioms Feign.Sdf.interval_ignored
#print axioms Feign.Sdf.shadow_behind_light_refuted
#print axioms Feign.Sdf.null_shape_endless_refuted
#print axioms Feign.Sdf.null_shape_shadow_endless_refuted
#print axioms Feign.Sdf.sdf_query_partial
#print axioms Feign.Sdf.sdf_shadow_partial

/-! C91 -/
#print axioms Feign.Shaders.wire_near_edges
#print axioms Feign.Shaders.wire_thresholds
#print axioms Feign.Shaders.wire_sdf_refuted

/-! C92 -/
#print axioms Feign.Media.own_settings_iff
#print axioms Feign.Media.media_own_settings_partial
#print axioms Feign.Media.shared_estimator_alike
#print axioms Feign.Media.shared_estimator_refuted
#print axioms Feign.Media.shared_density_refuted

/-! C93 -/
#print axioms Feign.Photons.launch_point
#print axioms Feign.Photons.launch_mean
#print axioms Feign.Photons.launch_other_refuted
#print axioms Feign.Photons.photon_shares
#print axioms Feign.Photons.photon_shares_iff
#print axioms Feign.Photons.photon_shares_partial
#print axioms Feign.Photons.interreflection_refuted
#print axioms Feign.Photons.escaping_refuted

/-! C94 -/
#print axioms Feign.Photons.view_iff
#print axioms Feign.Photons.view_partial
#print axioms Feign.Photons.view_refuted
#print axioms Feign.Photons.view_mirror_refuted

/-! C95 -/
#print axioms Feign.Scene.hits_attributed_partial
#print axioms Feign.Scene.attribution
#print axioms Feign.Scene.mixed_scene_refuted
#print axioms Feign.Scene.sdf_mode

/-! C96 -/
#print axioms Feign.Photons.roulette_partial
#print axioms Feign.Photons.roulette_mean
#print axioms Feign.Photons.roulette_absorbs
#print axioms Feign.Photons.roulette_no_red_refuted

/-! C97 -/
#print axioms Feign.Api.area_light_partial
#print axioms Feign.Api.sampled_everywhere_iff
#print axioms Feign.Api.lamp_of_last
#print axioms Feign.Api.two_carriers_refuted
#print axioms Feign.Api.shared_mesh_lamp_refuted
#print axioms Feign.Api.uncarried_refuted

/-! C98 -/
#print axioms Feign.Warp.uniDisk_mean
#print axioms Feign.Warp.uniSph_mean
#print axioms Feign.Warp.uniSph_law
#print axioms Feign.Warp.uniSphCap_mean
#print axioms Feign.Warp.uniHemi_mean
#print axioms Feign.Warp.uniHemi_law
#print axioms Feign.Warp.cosHemi_mean
#print axioms Feign.Warp.cosHemi_law
#print axioms Feign.Warp.cosPowHemi_mean
#print axioms Feign.Warp.cosPowHemi_law
#print axioms Feign.Warp.uniTri_mean
#print axioms Feign.Warp.cosHemi_estimator
#print axioms Feign.Warp.uniSph_estimator
#print axioms Feign.Warp.uniDisk_law
#print axioms Feign.Warp.uniTri_law

/-! C99 -/
#print axioms Feign.Bsdf.diffuse_bounce
#print axioms Feign.Bsdf.phong_bounce_partial
#print axioms Feign.Bsdf.glass_bounce
