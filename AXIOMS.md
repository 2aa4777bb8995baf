# Axioms of the claimed theorems

Output of `#print axioms` for every theorem named in `MANIFEST.json`, grouped.

## none (5 theorems)

`coord_sys_shared_partial`, `fillgaps_keeps`, `fillgaps_unlimited`, `fullyear_hundred`, `segments_count_wrong`

## propext (19 theorems)

`adRead_zero_count_false`, `bcd_bounded`, `bcd_clamped`, `bcd_roundtrip`, `bcd_valid_le`, `config_bt_false`, `coord_sys_needs_profiles`, `nens_is_prefix`, `nortek_nens_checked`, `nortek_start_ignored_false`, `odd_record_raises`, `rdi_bottom_winriver_short`, `rdi_number_false`, `rdi_number_short`, `rdi_sensor_bits`, `rdi_winriver_exact`, `reshape_in_range`, `single_ensemble_false`, `unknown_imu_loses_rest_false`

## Quot.sound, propext (73 theorems)

`adAdvance_at`, `adBurstStruct_nbyte`, `adIndex_restart_false`, `adRead_short`, `adReadfile_mono`, `altraw_flag`, `altraw_range_false`, `altraw_splits_ensemble_false`, `bad_checksum_accepted`, `check_ds_rejects`, `checksum_verdict`, `clean_fill_forgets`, `clean_fill_keeps`, `clean_fill_last`, `collapse_uniform`, `corr_filter_others`, `corr_filter_twice`, `corr_filter_vel`, `corr_surface_commute`, `corr_surface_order_false`, `crop_last_false`, `detrend_axis`, `drop_ext`, `dual_three_groups_false`, `dudz_down_raises`, `dudz_up`, `duty_none`, `fillgaps_again_false`, `fillgaps_limit`, `fillgaps_maxgap_false`, `fillgaps_short`, `fillgaps_twice_partial`, `findnextid_zero_false`, `fullyear_boundaries`, `fullyear_four_digits`, `fullyear_unique`, `getbit_eq_testBit`, `gn2002_empty`, `good_checksum_accepted_partial`, `good_checksum_rejected`, `headconfigBt_bits`, `headconfigBurst_bits`, `headconfigBurst_repack`, `index_stale_false`, `index_stale_witness_false`, `index_unversioned_false`, `int2binarray_bits`, `interpNan_blocks`, `lastDrop_spec`, `medfiltnan_fraction_partial`, `mem_prodIdx`, `nortek_vectrino_word`, `orientation_codes`, `range_offset_add`, `range_offset_undo`, `rd_time_roundtrip`, `rdi_dual_found`, `rdi_number_mono`, `rdi_number_partial`, `rdi_number_value`, `rdi_positions`, `rdi_resync_partial`, `rdi_winriver2_exact`, `rdi_winriver_size`, `segments_single`, `skip_first_false`, `skip_two_false`, `surface_from_P_spec`, `surface_from_P_zero`, `val_exceeds_nan`, `val_exceeds_spec`, `val_exceeds_twice`, `wave_records_raise`

## Classical.choice, Quot.sound, propext (919 theorems)

`acov_five_false`, `acov_lag_zero`, `acov_mod4_false`, `acov_offset`, `acov_override_false`, `acov_single`, `acov_single_false`, `acov_spec`, `ad2cp_ends_partial`, `ad2cp_read_ends`, `ad2cp_stored_inside`, `adIndex_complete`, `adIndex_loops_false`, `adIndex_numbering`, `adIndex_restart`, `adIndex_truncated`, `adLin_eq`, `adRead_checksum_detects`, `adRead_checksum_iff`, `adRead_encodes`, `adRead_field`, `ad_bt_mag_false`, `ad_bt_units_partial`, `ad_burst_units`, `ad_cold_false`, `ad_column_last_false`, `ad_echo_units`, `ad_file_values_partial`, `ad_out_of_sync`, `ad_read_synced`, `ad_struct_refused`, `advCsd_aligned`, `advCsd_override_false`, `advCsd_spec`, `advCsd_units`, `altStatus_decode`, `altraw_negative_false`, `altraw_orientation_false`, `altraw_other_size`, `altraw_read_partial`, `altraw_sample_partial`, `altraw_unreadable_false`, `argmaxN_spec`, `attr_changed`, `attr_roundtrip`, `attr_twice`, `attrs_kept_false`, `avg_exists`, `avg_half`, `avg_measured`, `avg_rotate_commute`, `avg_rotate_moving_false`, `avg_rotates`, `avg_short_false`, `avg_static_false`, `avg_then_motion`, `avg_to_beam_false`, `avg_usable_false`, `awac_earth`, `awac_file_partial`, `awac_four_beams`, `awac_negative_false`, `awac_profile_decoded_partial`, `awac_range_drift_false`, `awac_range_spec`, `awac_range_unknown`, `awac_room`, `awac_room_false`, `awac_whole_partial`, `b5_block`, `b5_order_false`, `beam_dims`, `beamsCy_decode`, `beamsCy_repack`, `beamsCy_special`, `bin_mean_complete`, `bin_mean_spec`, `bin_time_near`, `bin_var_shift`, `bin_var_single`, `bin_var_spec`, `binner_call_attrs`, `binner_call_input_false`, `binner_call_input_partial`, `binner_nfft_le`, `bitSlice_eq`, `bitSlice_testBit`, `burst_complete`, `burst_file_partial`, `burst_independent`, `burst_phantom_false`, `burst_times_partial`, `burst_whole_partial`, `calcFreq_units`, `calc_omat_down`, `calc_omat_fills_end`, `calc_omat_no_good`, `calcab_singular`, `calcab_spec`, `cascade_slope_exact`, `cascade_slope_scale`, `centered_diff_nonuniform`, `check_ds_spec`, `check_ds_twice`, `clash_loses`, `clean_skips_spec`, `clockF_near`, `code_spacing_bytes`, `coh_bins`, `coh_drift_false`, `coh_nfft_false`, `coh_same_span`, `coherence_code`, `coherence_complete`, `coherence_debias`, `coherence_exceeds_one`, `coherence_few`, `coherence_mem_partial`, `coherence_missing`, `coherence_noise_false`, `coherence_self`, `coherence_steady`, `coherence_symm`, `collapse_all_excluded_false`, `collapse_excluded`, `collapse_mem`, `collapse_silent_false`, `collapse_vote`, `collapse_warns_iff`, `collapse_warns_partial`, `collapse_zeros_silent_false`, `complex_roundtrip_fails`, `complex_roundtrip_partial`, `config_found`, `config_of_all`, `convert_degrees_direction`, `convert_degrees_east_north`, `convert_degrees_involutive`, `convert_degrees_range`, `convert_degrees_twice`, `coord_sys_mixed_false`, `corr_filter_beam`, `corr_filter_blanks`, `corr_filter_frames`, `corr_filter_keeps`, `corr_filter_keeps_false`, `corr_filter_rest`, `corr_filter_rotated`, `corr_filter_rotated_twice`, `corr_filter_ship_false`, `corr_filter_succeeds`, `correct_motion_any_frame`, `correct_motion_at_rest`, `correct_motion_frames`, `correct_motion_gravity`, `correct_motion_rejects`, `correct_motion_spec`, `correct_motion_twice`, `cos_deg_ne`, `cpsd_is_welch_partial`, `cpsd_linear`, `cpsd_steady`, `cpsd_swap`, `create_keeps`, `create_order`, `create_sizes`, `crop_records`, `csd_missing_elsewhere`, `csd_missing_here`, `csd_rates`, `csd_rates_false`, `csd_same_span_partial`, `date2matlabF_near`, `date2matlab_overflow`, `date2str_injective`, `date2str_parse`, `dateF_roundtrip`, `dbt_spec`, `decode_idempotent`, `demean_axis_false`, `demean_axis_partial`, `demean_axis_zero_false`, `despike_affine`, `despike_missing_false`, `despike_split`, `despike_unsplit`, `detrend_add_line`, `detrend_argument`, `detrend_gap_wrong`, `detrend_integers_false`, `detrend_line`, `detrend_lines`, `detrend_lines_apart`, `detrend_lines_normal`, `detrend_normal`, `detrend_optimal`, `detrend_short`, `detrend_twice`, `doppler_noise_above_doc`, `doppler_noise_units`, `doppler_noise_white`, `drift_free_false`, `dt642date_date2dt64`, `dt642epochF_near`, `dual_groups_partial`, `dudz_linear_partial`, `duty_false`, `duty_irregular_partial`, `duty_partial_burst`, `dvdz_units`, `eCoh_le_tke`, `eCoh_spec`, `ensPos_in_step`, `epoch2date_mono`, `epoch2date_near`, `epoch2date_offset`, `epoch2dt64F_near`, `epoch2dt64_mono`, `epochF_date_roundtrip`, `epochF_mono`, `epochF_no_drift`, `epochF_roundtrip`, `epochF_roundtrip_false`, `epochF_seconds`, `epoch_roundtrip_exact`, `epoch_roundtrip_fails`, `epoch_roundtrip_from_epoch_partial`, `epoch_roundtrip_partial`, `euler2orient_axis`, `euler2orient_orient2euler`, `euler2orient_rotation`, `ext_check`, `few_beams_false`, `fill_ens_mean_short`, `fill_ens_mean_spec`, `fill_ens_mean_twice`, `fill_time_gaps_complete`, `fill_time_gaps_monotone`, `fill_time_gaps_none`, `fill_time_gaps_uniform`, `fillgaps_all_missing`, `fillgaps_dim`, `fillgaps_interior`, `fillgaps_keeps_valid`, `fillgaps_leading`, `fillgaps_no_limit_fills`, `fillgaps_trailing`, `filtfreqs_spec`, `find_surface_lost`, `find_surface_median_partial`, `find_surface_short`, `find_surface_smooth`, `find_surface_untested`, `find_surface_wrap_false`, `first_diff_add`, `fiveVars_spec`, `five_beam_false`, `five_beam_vpvp`, `five_beam_wpwp`, `five_beam_zero_tilt_partial`, `fixed_uw_exact`, `fl32_int`, `fl64_err`, `fl64_exact`, `fl64_mono`, `fullyear_spec`, `gap_back_false`, `gap_beam`, `gap_declination_earth`, `gap_declination_false`, `gap_declination_other`, `gap_declination_values`, `gap_head_beam`, `gap_head_earth`, `gap_head_false`, `gap_head_inst`, `gap_head_succeeds`, `gap_head_values`, `gap_hides_spike_false`, `gap_rdi`, `gap_roundtrip`, `gap_spread`, `gap_succeeds`, `gap_values`, `gap_vector`, `gap_vertical`, `gga_date_false`, `gga_spec`, `gn2002_spec`, `gps_fields`, `gps_times`, `group_partial`, `group_wrong`, `hdt_spec`, `head_get`, `head_get_false`, `head_item_refused`, `head_matrix_decoded`, `head_plain`, `head_read`, `head_repeat_false`, `header_accepted_unchecked`, `iTke_spec`, `imu_axes`, `imu_dims`, `imu_orient`, `imu_units`, `index_again_partial`, `index_agrees_bt`, `index_agrees_burst`, `index_truncated_false`, `interp_blocks_spec`, `interpgaps_ends`, `interpgaps_eq_fillgaps`, `interpgaps_interior`, `interpgaps_keeps_valid`, `last_whole_false`, `last_whole_spec`, `last_whole_uniform`, `leading_imu_shifts`, `lfs_refused`, `lint_cases`, `lint_first_crossing`, `lint_pos`, `lint_units`, `lone_spike_found`, `lt83_empty`, `lt83_exact`, `lt83_noise_rad_false`, `lt83_scale`, `lt83_units`, `lt83_values`, `mat_derived_false`, `mat_roundtrip_partial`, `mat_single_false`, `matlab2dateF_outside`, `matlabF_roundtrip`, `matlab_roundtrip`, `matlab_roundtrip_id_iff`, `matlab_roundtrip_nearest`, `meanSingle_near`, `mean_axis`, `mean_of_bin_means`, `mean_steady`, `mean_times_false`, `mean_times_increasing`, `mean_times_near`, `mean_times_regular`, `mean_units`, `medfiltOrient_angles`, `medfiltOrient_even`, `medfiltOrient_imu_partial`, `medfiltOrient_signs_false`, `medfilt_const`, `medfilt_majority`, `medfilt_median`, `medfilt_twice_false`, `medfiltnan_never`, `motion_names`, `motion_sum`, `motion_sum_any_frame`, `motion_then_avg`, `nan_beyond_dataset`, `nan_beyond_echo`, `nan_beyond_half_done_false`, `nan_beyond_inplace`, `nan_beyond_int`, `nan_beyond_late_offset_false`, `nan_beyond_needs`, `nan_beyond_no_angle`, `nan_beyond_no_depth`, `nan_beyond_offset`, `nan_beyond_own_range_false`, `nan_beyond_partial`, `nan_beyond_refuses`, `nan_beyond_refuses_echo`, `nan_beyond_supplied_wrong`, `nan_beyond_twice`, `nens_exact`, `nens_more`, `nens_one_imu_false`, `new_coords_b5_false`, `new_coords_false`, `new_coords_partial`, `nkPressure_recovers`, `nkVelSingle_recovers`, `nk_back_exact_false`, `nk_back_many`, `nk_back_recovers`, `nk_back_single`, `nk_earth_single`, `no_sentence_keeps_false`, `noise_cells_false`, `noise_correct_spec`, `noise_floor_zero`, `noise_own_false`, `noise_units`, `noise_zero`, `nolist_beam_never`, `nolist_declination`, `nolist_false`, `nolist_head`, `nolist_partial`, `nolist_to_beam_never`, `nortekOrientF_near`, `nortek_axis`, `nortek_big_endian_false`, `nortek_burst_length_false`, `nortek_burst_mode_false`, `nortek_duty`, `nortek_ends_partial`, `nortek_hardware`, `nortek_head`, `nortek_opens`, `nortek_rotation`, `nortek_setup_partial`, `nortek_signature`, `nortek_vectrino_matrix_false`, `nortek_version`, `nortek_zero_size_false`, `ordinal_counts_days`, `orient2euler_euler2orient`, `orientation_bit_counterexample`, `orientation_bit_partial`, `pairBin_near`, `pairBin_rate`, `pairBin_short`, `parse_nfft_le`, `perRadian_energy`, `percent_good_lost_false`, `phaseAngleN_first`, `phaseSpace_affine`, `phase_affine`, `phase_angle_ignores`, `phase_angle_single_partial`, `phase_angle_wrong`, `phase_constant`, `phase_missing`, `phase_missing_false`, `phase_missing_partial`, `phase_outside`, `phase_steady`, `phase_test_spec`, `pieces_acov_false`, `pieces_acov_partial`, `pieces_acov_zero`, `pieces_averages`, `pieces_bins`, `pieces_coh_partial`, `pieces_csd_false`, `pieces_csd_partial`, `pieces_joint`, `pieces_noise_false`, `pieces_prod`, `pieces_psd_false`, `pieces_psd_partial`, `pieces_sf`, `pieces_stress`, `pieces_stress4`, `pieces_stress5`, `pieces_ti`, `pieces_tke`, `pieces_tke_beam`, `pieces_tke_beam_noise`, `pieces_window_false`, `pieces_xcov_partial`, `ping_time_1970_false`, `ping_time_bad`, `ping_time_exact`, `ping_time_order`, `pop_var_nonneg`, `pop_var_scale`, `pop_var_shift`, `pop_var_zero_iff`, `position_step_false`, `pressure_parts`, `principal_heading_range`, `principal_heading_rectilinear`, `principal_heading_reversal`, `principal_heading_rotation`, `probe_geometry`, `proc_idle_silent_false`, `proc_idle_states`, `proc_state`, `prodIdx_sorted`, `profile_dims`, `psdN_override_false`, `psd_bins_partial`, `psd_default_pad`, `psd_eq_cpsd`, `psd_freq_bounds`, `psd_freq_nyquist`, `psd_freq_spec`, `psd_line`, `psd_missing_elsewhere`, `psd_missing_here`, `psd_missing_noise_false`, `psd_missing_noise_witness`, `psd_nonneg`, `psd_override_ignored`, `psd_override_larger`, `psd_override_smaller`, `psd_parseval`, `psd_scale`, `psd_turned`, `quasi_order_false`, `quasi_pairs`, `quasi_sign_false`, `quasi_steady`, `quaternion2orient_neg`, `quaternion2orient_spec`, `quaternion2orient_zero`, `range_cells`, `range_eq_slice_partial`, `range_limit_spec`, `rdBottom_recovers`, `rdVelSingle_spec`, `rd_attitude_recovers`, `rd_back_recovers`, `rdiBeam_recovers`, `rdiRotF_near`, `rdi_alt_values`, `rdi_attitude_false`, `rdi_attitude_stays`, `rdi_axis`, `rdi_beam2inst_recovers`, `rdi_beam_concave`, `rdi_beam_degrees`, `rdi_beam_invertible`, `rdi_beam_recovers`, `rdi_bottom_bad`, `rdi_bottom_false`, `rdi_bottom_stale`, `rdi_bottom_values`, `rdi_cell_values`, `rdi_cells_false`, `rdi_cells_not_yet`, `rdi_cells_stale`, `rdi_config`, `rdi_config_decoded`, `rdi_config_other_angle_false`, `rdi_declination_false`, `rdi_declination_partial`, `rdi_declination_wrong`, `rdi_default_count`, `rdi_default_false`, `rdi_default_loss`, `rdi_default_partial`, `rdi_earth_bottom_false`, `rdi_earth_flow`, `rdi_earth_partial`, `rdi_earth_setup_false`, `rdi_ends_counted`, `rdi_ends_partial`, `rdi_ends_unaided`, `rdi_ends_unless_stuck`, `rdi_first_time_false`, `rdi_fs`, `rdi_growth_zero`, `rdi_growth_zero_false`, `rdi_hangs_false`, `rdi_in_step_false`, `rdi_in_step_partial`, `rdi_late_variable`, `rdi_late_variable_false`, `rdi_leader_values`, `rdi_model_name`, `rdi_names`, `rdi_not_yet`, `rdi_not_yet_false`, `rdi_open_ends`, `rdi_opens`, `rdi_range`, `rdi_range_false`, `rdi_reader_exact`, `rdi_reader_exact_false`, `rdi_reads_all_but_last`, `rdi_reads_all_false`, `rdi_reads_columns`, `rdi_realigned`, `rdi_resync_before_false`, `rdi_resync_false`, `rdi_resync_sound`, `rdi_resync_stray_false`, `rdi_rotation`, `rdi_second_leader`, `rdi_second_values`, `rdi_shape`, `rdi_ship_level`, `rdi_short_false`, `rdi_time_values`, `rdi_unknown_last_false`, `rdi_unknown_skipped`, `rdi_up_reverses`, `rdi_varying_bottom`, `rdi_varying_cells`, `rdi_varying_leader`, `rdi_varying_range`, `rdi_varying_reads`, `rdi_varying_shape`, `rdi_varying_time`, `rdi_vel_layout`, `rdi_winriver2_empty`, `rdi_winriver2_sentence`, `rdi_winriver2_short`, `reaches_records`, `reader_by_signature`, `reader_prefix`, `reader_terminates`, `record_consumed`, `records_placed`, `reduceAvgAngle_midpoint`, `reduceAvgAngle_negative_false`, `reduceAvgAngle_only_second`, `reduceAvgAngle_opposite_false`, `reduceAvgAngle_periodic`, `reduceAvgAngle_range`, `reduceAvgAngle_self`, `reduce_avg_false`, `reduce_b5_false`, `reduce_burst`, `repr_duration`, `repr_limit_false`, `repr_no_time_false`, `repr_others_false`, `repr_summary`, `reshape_frac_fails`, `reshape_frac_partial`, `reshape_no_pad`, `reshape_short`, `reshape_spec`, `resync_search`, `reynolds_turned`, `room_awac_bytes`, `room_vector_bytes`, `rotSingle_approx`, `rotStore_approx`, `rot_accurate`, `rot_back`, `rot_there_and_back`, `rotate2_invalid_frame`, `rotate2_path`, `rotate2_preserves_speed`, `rotate2_principal_horizontal`, `rotate2_reaches`, `rotate2_roundtrip`, `rotate2_roundtrip_fails_shear`, `rotate2_ship_error`, `rotate2_ship_fails`, `rotate2_ship_forward`, `rotate2_steady`, `rotate2_succeeds`, `rotate2_terminates`, `rotate2_via`, `rotate_vars_loaded`, `rotate_vars_mem_partial`, `rotate_vars_missing_false`, `rotate_vars_nodup`, `runsOf_unique`, `saveHeap_file`, `save_caller_complex`, `save_caller_false`, `save_caller_rounds`, `save_caller_single`, `save_changes_caller_false`, `save_each`, `save_encoding`, `save_time_units`, `save_twice`, `save_twice_false`, `save_user_encoding_false`, `scalar_time`, `scaleSingle_recovers`, `segments_default`, `segments_explicit`, `segments_tiny_error`, `separate_probes_false`, `separate_probes_partial`, `set_coords_beam`, `set_coords_distinct`, `set_coords_forced_false`, `set_coords_labels_partial`, `set_coords_three_beams_false`, `set_coords_unknown`, `set_declination_heading`, `set_declination_last_wins`, `set_declination_needs_orientmat`, `set_declination_turns_earth`, `set_inst2head_applies_once`, `set_inst2head_beam_unchecked`, `set_inst2head_refuses_matrix`, `set_inst2head_rejects`, `set_inst2head_succeeds`, `sfLags_mem`, `sf_call_hits`, `sf_call_or_zero`, `sf_call_values`, `sf_dissipation_high_false`, `sf_exact`, `sf_fit_partial`, `sf_fit_units`, `sf_high_false`, `sf_hole_false`, `sf_hole_sizes_false`, `sf_label_false`, `sf_scale`, `sf_separations`, `sf_separations_exact`, `sf_skips_first`, `sf_steady`, `sf_too_far_false`, `sf_units`, `sf_units_false`, `sf_wrong`, `shear2_linear_partial`, `shear2_units`, `shear_linear`, `short_burst_anchor`, `short_burst_times`, `sig_altraw_no_altimeter_false`, `sig_avg_no_ahrs_false`, `sig_earth_actual`, `sig_earth_partial`, `sig_file_partial`, `sig_head`, `sig_head_line`, `sig_magic`, `sig_orient_false`, `sig_sensors_beam3_false`, `sig_sensors_enu_false`, `sig_sensors_missing`, `sig_sensors_missing_false`, `sig_sensors_partial`, `sig_vars_partial`, `sig_vars_readable`, `signature_4comp_agrees`, `signature_down_is_roll_180`, `single_record_burst`, `single_steps_false`, `skip_partial`, `slice1d_errors`, `slice1d_nodup`, `slice1d_spec`, `spike_thresh_constant`, `spike_thresh_first`, `spike_thresh_partial`, `split_dec_false`, `split_equal_false`, `split_vars`, `status_decode`, `status_repack`, `storeLin_lt`, `storeLin_near`, `storeLin_recovers`, `storeQuot_near`, `storeQuot_recovers`, `stress4_any_frame`, `stress4_call_signature`, `stress4_changes_caller_false`, `stress4_errors`, `stress4_rdi`, `stress4_refuses`, `stress4_signature_down`, `stress4_signature_up`, `stress4_steady`, `stress5_any_frame`, `stress5_changes_caller_false`, `stress5_formula`, `stress5_level_partial`, `stress5_steady`, `stress5_tilt_false`, `stress5_tilt_rate`, `stress5_tilt_signature_partial`, `stress5_tilt_trdi_partial`, `stress5_tilt_trdi_rate`, `stress_angle_argument_false`, `stress_binner_noise_false`, `stress_cauchy_schwarz_false`, `stress_cauchy_schwarz_partial`, `stress_orientation`, `stress_steady`, `stress_units`, `structFun_spec`, `sum_rotates`, `sum_twice_false`, `surface_false`, `surface_filter_even`, `surface_filter_first_false`, `surface_filter_gap_false`, `surface_filter_last_false`, `surface_filter_median`, `surface_filter_short_false`, `surface_filter_spike`, `surface_from_P_mono`, `surface_missing_false`, `surface_range`, `surface_rotate_false`, `surface_stale_false`, `surface_too_many_false`, `surface_values`, `tagged_units`, `te01Int_pos`, `te01_exact`, `te01_hz_false`, `te01_scale`, `ti_below_noise`, `ti_coords`, `ti_missing`, `ti_numpy_raises`, `ti_spec`, `ti_steady`, `ti_threshold_false`, `ti_trend`, `ti_units`, `tilt_nortek_false`, `tilt_nortek_partial`, `tilt_range`, `tilt_rdi`, `tilt_zero_iff`, `tkeOf_missing_false`, `tkeOf_partial`, `tke_beam_bins`, `tke_beam_cells`, `tke_beam_plain`, `tke_beam_right`, `tke_beam_steady`, `tke_noise`, `tke_nonneg`, `tke_steady`, `tke_stress_drift`, `tke_stress_total`, `tke_units`, `trim_counterexample`, `trim_empty`, `trim_ignores_first_components`, `trim_partial`, `turbulence_frame_invariant`, `u_dir_earth`, `u_dir_other`, `unknown_imu_converts_again_false`, `unknown_imu_loses_next_false`, `unknown_imu_rewinds`, `unknown_imu_unreadable_false`, `unknown_record_skipped_partial`, `upAngle_neg`, `upAngle_range`, `upAngle_shift`, `userdata_contents`, `userdata_dec_false`, `userdata_path_false`, `userdata_search`, `userdata_use_partial`, `ustar_exact`, `ustar_mixed_zero`, `ustar_units`, `var_axis_false`, `var_axis_one`, `var_axis_partial`, `var_axis_square_false`, `var_axis_zero`, `var_constant_false`, `var_measured`, `var_single_const`, `var_single_near`, `var_steady`, `vec_data_decoded`, `vec_sysdata_cold_false`, `vec_sysdata_decoded_partial`, `vector_earth_partial`, `vector_file_partial`, `vector_imu_actual`, `vector_imu_beam_false`, `vector_imu_earth_partial`, `vector_imu_enu_false`, `vector_north_false`, `vector_phantom_false`, `vector_room`, `vector_slow_false`, `vector_whole_partial`, `velPsd_aligned`, `velPsd_bad_units`, `velPsd_override_false`, `velPsd_three`, `velPsd_turned`, `velPsd_units`, `velRot_add`, `velRot_cross`, `velRot_frame`, `velRot_orthogonal`, `velRot_zero`, `velacc_highpass`, `velacc_integral`, `velacc_step`, `vmdas_attitude_false`, `vmdas_bad_date`, `vmdas_flags_false`, `vmdas_partial`, `vno_cut_false`, `vno_data_decoded`, `vno_file_partial`, `vno_full_false`, `vno_mark_false`, `vno_no_event_false`, `vno_whole_partial`, `vtg_spec`, `window_array`, `winriver_bottom_range_false`, `winriver_bottom_values_partial`, `winriver_equator_false`, `winriver_meridian_false`, `winriver_no_fix`, `winriver_position_partial`, `winriver_west_false`, `xcov_drift_false`, `xcov_drift_witness`, `xcov_label_false`, `xcov_normed`, `xcov_single`, `xcov_spec`
