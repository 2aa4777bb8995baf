{
 "claims": [
  {
   "property": "C01",
   "status": "partial",
   "theorems": [
    "Dolfyn.epoch_roundtrip_exact",
    "Dolfyn.epoch_roundtrip_partial",
    "Dolfyn.epoch_roundtrip_fails",
    "Dolfyn.epoch_roundtrip_from_epoch_partial",
    "Dolfyn.epoch2dt64_mono",
    "Dolfyn.epochF_roundtrip_false"
   ],
   "note": "Full claim is false of the code for negative fractional epochs (epoch_roundtrip_fails); the round trip is proved for every non-negative time and for every whole second. These theorems take epoch times as exact numbers; in double precision the round trip is exact only to half a microsecond (C158)."
  },
  {
   "property": "C02",
   "status": "proved",
   "theorems": [
    "Dolfyn.matlab_roundtrip",
    "Dolfyn.matlab_roundtrip_nearest",
    "Dolfyn.matlab_roundtrip_id_iff",
    "Dolfyn.date2matlab_overflow"
   ],
   "note": ""
  },
  {
   "property": "C04",
   "status": "proved",
   "theorems": [
    "Dolfyn.rotate2_roundtrip",
    "Dolfyn.rotate2_via",
    "Dolfyn.rotate2_roundtrip_fails_shear"
   ],
   "note": ""
  },
  {
   "property": "C05",
   "status": "proved",
   "theorems": [
    "Dolfyn.rotate2_path",
    "Dolfyn.rotate2_reaches",
    "Dolfyn.rotate2_terminates",
    "Dolfyn.rotate2_invalid_frame",
    "Dolfyn.rotate2_ship_fails",
    "Dolfyn.rotate2_ship_forward",
    "Dolfyn.rotate2_succeeds",
    "Dolfyn.rotate2_ship_error"
   ],
   "note": ""
  },
  {
   "property": "C06",
   "status": "proved",
   "theorems": [
    "Dolfyn.rotate2_preserves_speed",
    "Dolfyn.rotate2_principal_horizontal"
   ],
   "note": ""
  },
  {
   "property": "C09",
   "status": "proved",
   "theorems": [
    "Dolfyn.set_declination_turns_earth",
    "Dolfyn.set_declination_last_wins",
    "Dolfyn.set_declination_heading",
    "Dolfyn.set_declination_needs_orientmat"
   ],
   "note": ""
  },
  {
   "property": "C10",
   "status": "proved",
   "theorems": [
    "Dolfyn.set_inst2head_rejects",
    "Dolfyn.set_inst2head_applies_once",
    "Dolfyn.set_inst2head_succeeds",
    "Dolfyn.set_inst2head_refuses_matrix",
    "Dolfyn.set_inst2head_beam_unchecked"
   ],
   "note": ""
  },
  {
   "property": "C12",
   "status": "proved",
   "theorems": [
    "Dolfyn.signature_4comp_agrees",
    "Dolfyn.rotate2_roundtrip"
   ],
   "note": ""
  },
  {
   "property": "C07",
   "status": "proved",
   "theorems": [
    "Dolfyn.euler2orient_rotation",
    "Dolfyn.euler2orient_axis",
    "Dolfyn.orient2euler_euler2orient",
    "Dolfyn.euler2orient_orient2euler"
   ],
   "note": ""
  },
  {
   "property": "C08",
   "status": "proved",
   "theorems": [
    "Dolfyn.nortek_rotation",
    "Dolfyn.nortek_axis",
    "Dolfyn.signature_down_is_roll_180",
    "Dolfyn.rdi_rotation",
    "Dolfyn.rdi_axis",
    "Dolfyn.rdi_up_reverses",
    "Dolfyn.rdi_ship_level",
    "Dolfyn.calc_omat_down"
   ],
   "note": ""
  },
  {
   "property": "C11",
   "status": "proved",
   "theorems": [
    "Dolfyn.rdi_beam_recovers",
    "Dolfyn.rdi_beam_degrees",
    "Dolfyn.rdi_beam_invertible",
    "Dolfyn.rdi_beam_concave",
    "Dolfyn.rdi_beam2inst_recovers"
   ],
   "note": ""
  },
  {
   "property": "C13",
   "status": "proved",
   "theorems": [
    "Dolfyn.convert_degrees_range",
    "Dolfyn.convert_degrees_direction",
    "Dolfyn.convert_degrees_twice",
    "Dolfyn.convert_degrees_involutive",
    "Dolfyn.convert_degrees_east_north"
   ],
   "note": ""
  },
  {
   "property": "C14",
   "status": "proved",
   "theorems": [
    "Dolfyn.u_dir_earth",
    "Dolfyn.u_dir_other"
   ],
   "note": ""
  },
  {
   "property": "C15",
   "status": "proved",
   "theorems": [
    "Dolfyn.principal_heading_reversal",
    "Dolfyn.principal_heading_range",
    "Dolfyn.principal_heading_rectilinear",
    "Dolfyn.principal_heading_rotation"
   ],
   "note": ""
  },
  {
   "property": "C16",
   "status": "proved",
   "theorems": [
    "Dolfyn.quaternion2orient_spec",
    "Dolfyn.quaternion2orient_neg",
    "Dolfyn.quaternion2orient_zero"
   ],
   "note": ""
  },
  {
   "property": "C68",
   "status": "proved",
   "theorems": [
    "Dolfyn.calc_omat_fills_end",
    "Dolfyn.calc_omat_no_good",
    "Dolfyn.calc_omat_down"
   ],
   "note": ""
  },
  {
   "property": "C20",
   "status": "proved",
   "theorems": [
    "Dolfyn.detrend_normal",
    "Dolfyn.detrend_optimal",
    "Dolfyn.detrend_add_line",
    "Dolfyn.detrend_line",
    "Dolfyn.detrend_twice",
    "Dolfyn.detrend_gap_wrong",
    "Dolfyn.detrend_short"
   ],
   "note": "The failure with missing samples is proved in detrend_gap_wrong."
  },
  {
   "property": "C31",
   "status": "proved",
   "theorems": [
    "Dolfyn.slice1d_spec",
    "Dolfyn.mem_prodIdx",
    "Dolfyn.prodIdx_sorted",
    "Dolfyn.slice1d_nodup",
    "Dolfyn.slice1d_errors"
   ],
   "note": ""
  },
  {
   "property": "C32",
   "status": "partial",
   "theorems": [
    "Dolfyn.group_partial",
    "Dolfyn.group_wrong",
    "Dolfyn.runsOf_unique"
   ],
   "note": "False of the code for masks that begin with True and contain another run (group_wrong proves it for every such mask); proved for all other masks."
  },
  {
   "property": "C33",
   "status": "proved",
   "theorems": [
    "Dolfyn.fillgaps_keeps_valid",
    "Dolfyn.fillgaps_interior",
    "Dolfyn.fillgaps_leading",
    "Dolfyn.fillgaps_trailing",
    "Dolfyn.fillgaps_all_missing",
    "Dolfyn.fillgaps_no_limit_fills",
    "Dolfyn.interpgaps_keeps_valid",
    "Dolfyn.interpgaps_interior",
    "Dolfyn.interpgaps_ends",
    "Dolfyn.interpgaps_eq_fillgaps"
   ],
   "note": ""
  },
  {
   "property": "C34",
   "status": "proved",
   "theorems": [
    "Dolfyn.fill_time_gaps_complete",
    "Dolfyn.fill_time_gaps_none",
    "Dolfyn.fill_time_gaps_uniform",
    "Dolfyn.fill_time_gaps_monotone"
   ],
   "note": ""
  },
  {
   "property": "C17",
   "status": "proved",
   "theorems": [
    "Dolfyn.reshape_spec",
    "Dolfyn.reshape_in_range",
    "Dolfyn.reshape_no_pad",
    "Dolfyn.reshape_short"
   ],
   "note": ""
  },
  {
   "property": "C18",
   "status": "partial",
   "theorems": [
    "Dolfyn.reshape_frac_partial",
    "Dolfyn.reshape_frac_fails"
   ],
   "note": "False of the code: only one bin is dropped, so strongly fractional bin lengths raise IndexError. The exact condition for success and the samples chosen are proved."
  },
  {
   "property": "C19",
   "status": "proved",
   "theorems": [
    "Dolfyn.bin_mean_spec",
    "Dolfyn.bin_mean_complete",
    "Dolfyn.mean_of_bin_means",
    "Dolfyn.bin_var_spec",
    "Dolfyn.pop_var_nonneg",
    "Dolfyn.pop_var_zero_iff",
    "Dolfyn.pop_var_shift",
    "Dolfyn.pop_var_scale",
    "Dolfyn.bin_var_shift"
   ],
   "note": ""
  },
  {
   "property": "C21",
   "status": "proved",
   "theorems": [
    "Dolfyn.binner_nfft_le",
    "Dolfyn.parse_nfft_le",
    "Dolfyn.psd_default_pad"
   ],
   "note": ""
  },
  {
   "property": "C22",
   "status": "partial",
   "theorems": [
    "Dolfyn.psd_bins_partial",
    "Dolfyn.psd_override_larger",
    "Dolfyn.psd_override_smaller",
    "Dolfyn.psd_override_ignored"
   ],
   "note": "False of the code: the override is ignored when the data are cut; proved for no override or an override equal to the bin length. Every other override fails: it raises, leaves rows unwritten, or (same number of bins) is ignored."
  },
  {
   "property": "C30",
   "status": "proved",
   "theorems": [
    "Dolfyn.noise_correct_spec",
    "Dolfyn.noise_zero",
    "Dolfyn.noise_floor_zero"
   ],
   "note": ""
  },
  {
   "property": "C67",
   "status": "proved",
   "theorems": [
    "Dolfyn.check_ds_spec",
    "Dolfyn.check_ds_rejects",
    "Dolfyn.check_ds_twice"
   ],
   "note": ""
  },
  {
   "property": "C23",
   "status": "partial",
   "theorems": [
    "Dolfyn.segments_default",
    "Dolfyn.segments_single",
    "Dolfyn.segments_explicit",
    "Dolfyn.cpsd_is_welch_partial",
    "Dolfyn.segments_tiny_error",
    "Dolfyn.segments_count_wrong",
    "Dolfyn.window_array"
   ],
   "note": "False of the code: the default path divides by nens, which can be smaller than the number of segments summed (9 samples, FFT length 4: six segments, divisor four), and FFT lengths 1 and 2 raise ValueError. Proved: position and overlap of the segments, and that the result is the true average times count/nens."
  },
  {
   "property": "C24",
   "status": "proved",
   "theorems": [
    "Dolfyn.psd_freq_spec",
    "Dolfyn.psd_freq_bounds",
    "Dolfyn.psd_freq_nyquist"
   ],
   "note": ""
  },
  {
   "property": "C25",
   "status": "proved",
   "theorems": [
    "Dolfyn.psd_nonneg",
    "Dolfyn.psd_scale",
    "Dolfyn.psd_line",
    "Dolfyn.psd_eq_cpsd"
   ],
   "note": ""
  },
  {
   "property": "C26",
   "status": "proved",
   "theorems": [
    "Dolfyn.psd_parseval"
   ],
   "note": ""
  },
  {
   "property": "C27",
   "status": "partial",
   "theorems": [
    "Dolfyn.coherence_code",
    "Dolfyn.coherence_mem_partial",
    "Dolfyn.coherence_self",
    "Dolfyn.coherence_exceeds_one",
    "Dolfyn.coherence_few",
    "Dolfyn.coherence_debias",
    "Dolfyn.coherence_symm"
   ],
   "note": "False of the code where the segment count is mis-stated: coherence(a,a)=9/4 for 9 samples and FFT length 4. Proved where count = nens."
  },
  {
   "property": "C28",
   "status": "partial",
   "theorems": [
    "Dolfyn.phase_angle_ignores",
    "Dolfyn.phase_angle_single_partial",
    "Dolfyn.phase_angle_wrong"
   ],
   "note": "False of the code: after the first segment the second record is ignored. Proved for a single segment."
  },
  {
   "property": "C29",
   "status": "proved",
   "theorems": [
    "Dolfyn.cpsd_swap",
    "Dolfyn.cpsd_linear"
   ],
   "note": ""
  },
  {
   "property": "C35",
   "status": "proved",
   "theorems": [
    "Dolfyn.interpNan_blocks",
    "Dolfyn.interp_blocks_spec",
    "Dolfyn.clean_fill_keeps",
    "Dolfyn.clean_fill_forgets",
    "Dolfyn.clean_fill_last"
   ],
   "note": "xarray interpolate_na is a parameter assumed to keep present samples."
  },
  {
   "property": "C36",
   "status": "partial",
   "theorems": [
    "Dolfyn.range_limit_spec",
    "Dolfyn.spike_thresh_partial",
    "Dolfyn.spike_thresh_first",
    "Dolfyn.spike_thresh_constant"
   ],
   "note": "False of the code for the first sample, which is compared with zero; proved for all later samples."
  },
  {
   "property": "C38",
   "status": "proved",
   "theorems": [
    "Dolfyn.val_exceeds_spec",
    "Dolfyn.val_exceeds_nan",
    "Dolfyn.val_exceeds_twice",
    "Dolfyn.corr_filter_vel",
    "Dolfyn.corr_filter_twice",
    "Dolfyn.corr_filter_rotated"
   ],
   "note": ""
  },
  {
   "property": "C39",
   "status": "partial",
   "theorems": [
    "Dolfyn.nan_beyond_partial",
    "Dolfyn.nan_beyond_int",
    "Dolfyn.nan_beyond_no_depth",
    "Dolfyn.nan_beyond_no_angle",
    "Dolfyn.nan_beyond_echo",
    "Dolfyn.nan_beyond_supplied_wrong",
    "Dolfyn.cos_deg_ne"
   ],
   "note": "False of the code for a beam angle given by the user in degrees (every non-zero rational angle fails for some cell); proved for the angle stored in the dataset."
  },
  {
   "property": "C40",
   "status": "proved",
   "theorems": [
    "Dolfyn.surface_from_P_spec",
    "Dolfyn.surface_from_P_mono",
    "Dolfyn.surface_from_P_zero",
    "Dolfyn.range_offset_add",
    "Dolfyn.range_offset_undo"
   ],
   "note": ""
  },
  {
   "property": "C69",
   "status": "proved",
   "theorems": [
    "Dolfyn.fill_ens_mean_spec",
    "Dolfyn.fill_ens_mean_short"
   ],
   "note": ""
  },
  {
   "property": "C70",
   "status": "partial",
   "theorems": [
    "Dolfyn.argmaxN_spec",
    "Dolfyn.lastDrop_spec",
    "Dolfyn.find_surface_median_partial",
    "Dolfyn.find_surface_lost",
    "Dolfyn.find_surface_untested",
    "Dolfyn.find_surface_short",
    "Dolfyn.find_surface_wrap_false"
   ],
   "note": "False of the code: the threshold test uses the wrong axes, and in profiles of more than 256 cells the index wraps around (find_surface_wrap_false). The candidates and the median are proved for at most 256 cells."
  },
  {
   "property": "C71",
   "status": "proved",
   "theorems": [
    "Dolfyn.calcab_spec",
    "Dolfyn.calcab_singular",
    "Dolfyn.phase_test_spec"
   ],
   "note": ""
  },
  {
   "property": "C72",
   "status": "partial",
   "theorems": [
    "Dolfyn.medfiltnan_never",
    "Dolfyn.medfiltnan_fraction_partial"
   ],
   "note": "False of the code for every permitted gap of at least one sample; proved for fractions."
  },
  {
   "property": "C57",
   "status": "partial",
   "theorems": [
    "Dolfyn.tke_nonneg",
    "Dolfyn.stress_cauchy_schwarz_partial",
    "Dolfyn.stress_cauchy_schwarz_false",
    "Dolfyn.tke_stress_total",
    "Dolfyn.tke_noise"
   ],
   "note": "False of the code when the two components are missing at different samples; proved for a common missing-value pattern (in particular complete records)."
  },
  {
   "property": "C58",
   "status": "partial",
   "theorems": [
    "Dolfyn.shear_linear",
    "Dolfyn.dudz_up",
    "Dolfyn.dudz_down_raises",
    "Dolfyn.dudz_linear_partial",
    "Dolfyn.shear2_linear_partial",
    "Dolfyn.first_diff_add",
    "Dolfyn.centered_diff_nonuniform"
   ],
   "note": "The difference schemes are proved exact; calc_dudz, calc_dvdz and calc_shear2 raise for downward-facing data, so the API statement holds only for upward-facing data."
  },
  {
   "property": "C59",
   "status": "partial",
   "theorems": [
    "Dolfyn.rdiBeam_recovers",
    "Dolfyn.stress4_signature_up",
    "Dolfyn.stress4_signature_down",
    "Dolfyn.stress4_rdi",
    "Dolfyn.stress4_errors"
   ],
   "note": "Signature up and down and RDI upward proved; for a downward RDI the code returns minus the covariance of v and w (stress4_rdi states the value)."
  },
  {
   "property": "C60",
   "status": "partial",
   "theorems": [
    "Dolfyn.fiveVars_spec",
    "Dolfyn.five_beam_zero_tilt_partial",
    "Dolfyn.stress5_level_partial",
    "Dolfyn.five_beam_vpvp",
    "Dolfyn.five_beam_wpwp",
    "Dolfyn.five_beam_false"
   ],
   "note": "vpvp and wpwp are false of the code; the other terms are proved at zero tilt."
  },
  {
   "property": "C61",
   "status": "partial",
   "theorems": [
    "Dolfyn.lt83_exact",
    "Dolfyn.lt83_units",
    "Dolfyn.lt83_noise_rad_false",
    "Dolfyn.lt83_values",
    "Dolfyn.lt83_empty"
   ],
   "note": "Proved in both units for the spectrum, and with noise in Hz; with noise in rad/s the function subtracts the per-Hz level."
  },
  {
   "property": "C62",
   "status": "partial",
   "theorems": [
    "Dolfyn.sf_wrong",
    "Dolfyn.sf_fit_partial",
    "Dolfyn.sf_skips_first",
    "Dolfyn.structFun_spec"
   ],
   "note": "False of the code for every positive dissipation (fits against r^2/3 and skips the requested first separation)."
  },
  {
   "property": "C66",
   "status": "proved",
   "theorems": [
    "Dolfyn.lint_first_crossing",
    "Dolfyn.lint_cases",
    "Dolfyn.lint_pos"
   ],
   "note": ""
  },
  {
   "property": "C74",
   "status": "proved",
   "theorems": [
    "Dolfyn.doppler_noise_white",
    "Dolfyn.doppler_noise_above_doc",
    "Dolfyn.doppler_noise_units"
   ],
   "note": ""
  },
  {
   "property": "C75",
   "status": "proved",
   "theorems": [
    "Dolfyn.cascade_slope_exact",
    "Dolfyn.cascade_slope_scale"
   ],
   "note": ""
  },
  {
   "property": "C76",
   "status": "proved",
   "theorems": [
    "Dolfyn.ustar_exact",
    "Dolfyn.ustar_mixed_zero"
   ],
   "note": ""
  },
  {
   "property": "C63",
   "status": "proved",
   "theorems": [
    "Dolfyn.velRot_cross",
    "Dolfyn.velRot_orthogonal",
    "Dolfyn.velRot_zero",
    "Dolfyn.velRot_add",
    "Dolfyn.velRot_frame"
   ],
   "note": ""
  },
  {
   "property": "C64",
   "status": "proved",
   "theorems": [
    "Dolfyn.correct_motion_spec",
    "Dolfyn.correct_motion_frames",
    "Dolfyn.correct_motion_any_frame",
    "Dolfyn.correct_motion_twice",
    "Dolfyn.correct_motion_rejects"
   ],
   "note": ""
  },
  {
   "property": "C65",
   "status": "partial",
   "theorems": [
    "Dolfyn.duty_false",
    "Dolfyn.duty_irregular_partial",
    "Dolfyn.duty_partial_burst",
    "Dolfyn.duty_none"
   ],
   "note": "False of the code for every wrong but regular interval; irregular bursts are rejected."
  },
  {
   "property": "C77",
   "status": "partial",
   "theorems": [
    "Dolfyn.separate_probes_false",
    "Dolfyn.separate_probes_partial",
    "Dolfyn.probe_geometry"
   ],
   "note": "False of the code; proved for diagonal beam matrices without head rotation."
  },
  {
   "property": "C78",
   "status": "proved",
   "theorems": [
    "Dolfyn.correct_motion_gravity",
    "Dolfyn.correct_motion_at_rest"
   ],
   "note": ""
  },
  {
   "property": "C41",
   "status": "proved",
   "theorems": [
    "Dolfyn.reader_by_signature",
    "Dolfyn.reader_prefix",
    "Dolfyn.lfs_refused"
   ],
   "note": ""
  },
  {
   "property": "C42",
   "status": "proved",
   "theorems": [
    "Dolfyn.ext_check"
   ],
   "note": ""
  },
  {
   "property": "C54",
   "status": "partial",
   "theorems": [
    "Dolfyn.trim_partial",
    "Dolfyn.trim_counterexample",
    "Dolfyn.trim_ignores_first_components",
    "Dolfyn.trim_empty"
   ],
   "note": "The claim is false of the code: all missing samples are counted, not the trailing run. Proved: the exact length after trimming, that the claim holds exactly when all marked samples are trailing, and a counterexample."
  },
  {
   "property": "C55",
   "status": "partial",
   "theorems": [
    "Dolfyn.complex_roundtrip_partial",
    "Dolfyn.complex_roundtrip_fails",
    "Dolfyn.clash_loses"
   ],
   "note": "The claim is false of the code when the first of several complex variables has a one-letter name (TypeError, proved) or a variable is named like a part. Proved in all other cases."
  },
  {
   "property": "C43",
   "status": "partial",
   "theorems": [
    "Dolfyn.checksum_verdict",
    "Dolfyn.bad_checksum_accepted",
    "Dolfyn.good_checksum_rejected",
    "Dolfyn.good_checksum_accepted_partial",
    "Dolfyn.odd_record_raises"
   ],
   "note": "The claim is false of the code: the test is inverted and the sum is not reduced. Proved: the exact verdict, that every wrong checksum is accepted, that a right one with a small sum is rejected, and acceptance of right ones otherwise."
  },
  {
   "property": "C44",
   "status": "proved",
   "theorems": [
    "Dolfyn.resync_search"
   ],
   "note": ""
  },
  {
   "property": "C79",
   "status": "partial",
   "theorems": [
    "Dolfyn.records_placed",
    "Dolfyn.reader_terminates",
    "Dolfyn.leading_imu_shifts",
    "Dolfyn.unknown_imu_rewinds",
    "Dolfyn.record_consumed"
   ],
   "note": "Proved for all sequences of complete records with decodable IMU data after the first sample; an IMU record before the first sample shifts all samples and one of unknown type (including the announced id 210) makes the next sample overwrite the last (both proved)."
  },
  {
   "property": "C81",
   "status": "partial",
   "theorems": [
    "Dolfyn.wave_records_raise"
   ],
   "note": "The claim is false of the code: every complete wave record raises (proved)."
  },
  {
   "property": "C82",
   "status": "proved",
   "theorems": [
    "Dolfyn.bcd_roundtrip",
    "Dolfyn.bcd_bounded",
    "Dolfyn.bcd_clamped",
    "Dolfyn.int2binarray_bits"
   ],
   "note": ""
  },
  {
   "property": "C83",
   "status": "proved",
   "theorems": [
    "Dolfyn.imu_axes"
   ],
   "note": ""
  },
  {
   "property": "C85",
   "status": "partial",
   "theorems": [
    "Dolfyn.orientation_bit_partial",
    "Dolfyn.orientation_bit_counterexample"
   ],
   "note": "The exact behaviour is proved; it differs from the claim at the first record after turning up."
  },
  {
   "property": "C86",
   "status": "proved",
   "theorems": [
    "Dolfyn.pressure_parts"
   ],
   "note": ""
  },
  {
   "property": "C45",
   "status": "proved",
   "theorems": [
    "Dolfyn.adRead_encodes",
    "Dolfyn.adRead_short",
    "Dolfyn.adRead_zero_count_false",
    "Dolfyn.adLin_eq",
    "Dolfyn.adRead_field",
    "Dolfyn.adRead_checksum_iff",
    "Dolfyn.adRead_checksum_detects",
    "Dolfyn.header_accepted_unchecked",
    "Dolfyn.ad_out_of_sync",
    "Dolfyn.ad_read_synced"
   ],
   "note": "Values are raw integers (a float is its 32-bit pattern). adRead_zero_count_false: a field declared with zero elements still consumes one; header_accepted_unchecked: the file reader does not verify checksums."
  },
  {
   "property": "C46",
   "status": "proved",
   "theorems": [
    "Dolfyn.adIndex_complete",
    "Dolfyn.adIndex_numbering",
    "Dolfyn.adIndex_truncated",
    "Dolfyn.adIndex_loops_false",
    "Dolfyn.adIndex_restart",
    "Dolfyn.adIndex_restart_false"
   ],
   "note": "Month bytes below 255 and hardware counters clear of 2^32 by the number of records. adIndex_truncated and adIndex_loops_false record what happens outside: a truncated last record loses the whole index, and a size of 65526 loops for ever. Restarts of the counter are covered (adIndex_restart) unless a counter meets the continued count, then two ensembles are merged (adIndex_restart_false)."
  },
  {
   "property": "C87",
   "status": "proved",
   "theorems": [
    "Dolfyn.index_agrees_burst",
    "Dolfyn.index_agrees_bt",
    "Dolfyn.adBurstStruct_nbyte"
   ],
   "note": ""
  },
  {
   "property": "C48",
   "status": "proved",
   "theorems": [
    "Dolfyn.bitSlice_eq",
    "Dolfyn.bitSlice_testBit",
    "Dolfyn.getbit_eq_testBit",
    "Dolfyn.beamsCy_decode",
    "Dolfyn.beamsCy_repack",
    "Dolfyn.beamsCy_special",
    "Dolfyn.headconfigBurst_bits",
    "Dolfyn.headconfigBurst_repack",
    "Dolfyn.headconfigBt_bits",
    "Dolfyn.status_repack",
    "Dolfyn.status_decode",
    "Dolfyn.altStatus_decode"
   ],
   "note": ""
  },
  {
   "property": "C49",
   "status": "partial",
   "theorems": [
    "Dolfyn.collapse_uniform",
    "Dolfyn.collapse_excluded",
    "Dolfyn.collapse_vote",
    "Dolfyn.collapse_mem",
    "Dolfyn.collapse_all_excluded_false"
   ],
   "note": "Not true when the vector is not uniform and every value is excluded: the code raises IndexError (collapse_all_excluded_false)."
  },
  {
   "property": "C56",
   "status": "partial",
   "theorems": [
    "Dolfyn.reduceAvgAngle_self",
    "Dolfyn.reduceAvgAngle_midpoint",
    "Dolfyn.reduceAvgAngle_periodic",
    "Dolfyn.reduceAvgAngle_range",
    "Dolfyn.reduceAvgAngle_negative_false",
    "Dolfyn.reduceAvgAngle_opposite_false",
    "Dolfyn.reduceAvgAngle_only_second"
   ],
   "note": "Headings do not stay in [0,360): 270 and 270 average to -90. Exact real arithmetic."
  },
  {
   "property": "C47",
   "status": "partial",
   "theorems": [
    "Dolfyn.range_eq_slice_partial",
    "Dolfyn.adReadfile_mono",
    "Dolfyn.reaches_records",
    "Dolfyn.adAdvance_at",
    "Dolfyn.altraw_range_false",
    "Dolfyn.single_ensemble_false"
   ],
   "note": "Proved for files without raw altimeter records that are read without error and stay in step up to the first ensemble of the range (reaches_records gives this for files made of readable records). False with raw altimeter records (altraw_range_false)."
  },
  {
   "property": "C88",
   "status": "partial",
   "theorems": [
    "Dolfyn.ensPos_in_step",
    "Dolfyn.altraw_splits_ensemble_false"
   ],
   "note": "True when the counters of all record types are in step; false when a record type occurs less often than the others (altraw_splits_ensemble_false)."
  },
  {
   "property": "C50",
   "status": "partial",
   "theorems": [
    "Dolfyn.rdi_reader_exact",
    "Dolfyn.rdi_winriver_exact",
    "Dolfyn.rdi_winriver2_exact",
    "Dolfyn.rdi_realigned",
    "Dolfyn.rdi_in_step_partial",
    "Dolfyn.rdi_bottom_winriver_short",
    "Dolfyn.rdi_reader_exact_false",
    "Dolfyn.rdi_in_step_false",
    "Dolfyn.rdi_winriver_size",
    "Dolfyn.rdi_winriver2_empty",
    "Dolfyn.rdi_winriver2_sentence",
    "Dolfyn.rdi_unknown_skipped",
    "Dolfyn.rdi_unknown_last_false",
    "Dolfyn.rdi_positions",
    "Dolfyn.rdi_attitude_stays",
    "Dolfyn.rdi_attitude_false",
    "Dolfyn.rdi_dual_found",
    "Dolfyn.rdi_winriver2_short",
    "Dolfyn.rdi_second_leader"
   ],
   "note": "Every data-type reader except WinRiver bottom track consumes what it accounts for, and the position after an ensemble is exact while the correction is zero. False for bottom track in WinRiver files: 12 bytes short, and the sticky correction loses an ensemble (rdi_in_step_false, a concrete file)."
  },
  {
   "property": "C51",
   "status": "partial",
   "theorems": [
    "Dolfyn.rdi_reads_all_but_last",
    "Dolfyn.rdi_reads_all_false"
   ],
   "note": "For every file of n complete ensembles of one instrument exactly min(nens, n-1) ensembles are read; the last one never is."
  },
  {
   "property": "C52",
   "status": "proved",
   "theorems": [
    "Dolfyn.gps_times",
    "Dolfyn.gps_fields"
   ],
   "note": "For all GPS series, NaN and duplicates included."
  },
  {
   "property": "C53",
   "status": "partial",
   "theorems": [
    "Dolfyn.rdi_declination_partial",
    "Dolfyn.rdi_declination_false",
    "Dolfyn.rdi_declination_wrong"
   ],
   "note": "Holds when the software applied no declination; otherwise nothing is turned."
  },
  {
   "property": "C89",
   "status": "partial",
   "theorems": [
    "Dolfyn.rdi_number_partial",
    "Dolfyn.rdi_number_value",
    "Dolfyn.rdi_number_mono",
    "Dolfyn.rdi_number_short",
    "Dolfyn.rdi_number_false"
   ],
   "note": "True up to ensemble 65535; from there on the numbers are too small by the most significant byte (65535 is used for 65536)."
  },
  {
   "property": "C90",
   "status": "partial",
   "theorems": [
    "Dolfyn.rdi_default_count",
    "Dolfyn.rdi_default_partial",
    "Dolfyn.rdi_default_false",
    "Dolfyn.rdi_default_loss"
   ],
   "note": "Exact count for files of at least 52 equally long ensembles without byte 7F behind the headers. Holds for ensembles of at least 400 bytes; false for shorter ones, where the estimate is too small and ensembles are lost. Exact rational arithmetic."
  },
  {
   "property": "C91",
   "status": "partial",
   "theorems": [
    "Dolfyn.crop_records",
    "Dolfyn.crop_last_false"
   ],
   "note": "Proved for ranges that end before the last ensemble; the last ensemble can never be kept (crop_last_false)."
  },
  {
   "property": "C92",
   "status": "partial",
   "theorems": [
    "Dolfyn.ordinal_counts_days",
    "Dolfyn.ping_time_exact",
    "Dolfyn.ping_time_order",
    "Dolfyn.ping_time_bad",
    "Dolfyn.ping_time_1970_false"
   ],
   "note": "Exact for every legal reading from 1970 on except the very first instant of 1970, which is taken for missing. Exact rational arithmetic. Epoch times are exact numbers here; the doubles of the code move an instant by less than a quarter of a microsecond (C158)."
  },
  {
   "property": "C03",
   "status": "proved",
   "theorems": [
    "Dolfyn.bcd_roundtrip",
    "Dolfyn.bcd_bounded",
    "Dolfyn.bcd_valid_le",
    "Dolfyn.bcd_clamped",
    "Dolfyn.rd_time_roundtrip",
    "Dolfyn.fullyear_spec",
    "Dolfyn.fullyear_unique",
    "Dolfyn.fullyear_four_digits",
    "Dolfyn.fullyear_boundaries",
    "Dolfyn.fullyear_hundred"
   ],
   "note": ""
  },
  {
   "property": "C84",
   "status": "partial",
   "theorems": [
    "Dolfyn.burst_times_partial",
    "Dolfyn.short_burst_times",
    "Dolfyn.burst_independent",
    "Dolfyn.short_burst_anchor",
    "Dolfyn.single_record_burst"
   ],
   "note": "False for bursts with one or two system records (proved); proved for three or more."
  },
  {
   "property": "C93",
   "status": "partial",
   "theorems": [
    "Dolfyn.skip_partial",
    "Dolfyn.skip_two_false",
    "Dolfyn.skip_first_false",
    "Dolfyn.dual_groups_partial",
    "Dolfyn.dual_three_groups_false"
   ],
   "note": "Proved for isolated single skips after a complete first ensemble and, for dual profiles, for equal groups with a number of gaps other than two; false otherwise (concrete witnesses)."
  },
  {
   "property": "C94",
   "status": "partial",
   "theorems": [
    "Dolfyn.acov_spec",
    "Dolfyn.acov_lag_zero",
    "Dolfyn.acov_offset",
    "Dolfyn.acov_mod4_false",
    "Dolfyn.acov_five_false",
    "Dolfyn.acov_override_false",
    "Dolfyn.acov_single",
    "Dolfyn.acov_single_false"
   ],
   "note": "Proved for every default bin length of at least four that leaves 0 or 1 modulo 4, except five, and at least two bins; all other bin lengths from four on, and an own n_bin, are refuted."
  },
  {
   "property": "C97",
   "status": "partial",
   "theorems": [
    "Dolfyn.scalar_time",
    "Dolfyn.tagged_units",
    "Dolfyn.profile_dims",
    "Dolfyn.create_keeps",
    "Dolfyn.create_order",
    "Dolfyn.b5_block",
    "Dolfyn.create_sizes",
    "Dolfyn.b5_order_false",
    "Dolfyn.few_beams_false",
    "Dolfyn.beam_dims",
    "Dolfyn.imu_dims"
   ],
   "note": "Proved for the supported shapes; false for two-dimensional fifth-beam profiles out of order and for one- or two-beam instruments (proved)."
  },
  {
   "property": "C98",
   "status": "partial",
   "theorems": [
    "Dolfyn.avg_measured",
    "Dolfyn.var_measured",
    "Dolfyn.avg_static_false",
    "Dolfyn.avg_short_false"
   ],
   "note": "Proved for measured variables of all record types at least one bin long; static variables are dropped and short record types make the call raise (proved)."
  },
  {
   "property": "C99",
   "status": "partial",
   "theorems": [
    "Dolfyn.mat_roundtrip_partial",
    "Dolfyn.mat_single_false",
    "Dolfyn.mat_derived_false"
   ],
   "note": "Proved for raw datasets without fifth-beam profiles and without axes of length one; refuted for the others."
  },
  {
   "property": "C100",
   "status": "partial",
   "theorems": [
    "Dolfyn.userdata_contents",
    "Dolfyn.userdata_search",
    "Dolfyn.drop_ext",
    "Dolfyn.userdata_path_false",
    "Dolfyn.userdata_use_partial",
    "Dolfyn.userdata_dec_false"
   ],
   "note": "Search by name, contents and use proved; a given path and names containing dec are refuted."
  },
  {
   "property": "C101",
   "status": "partial",
   "theorems": [
    "Dolfyn.config_of_all",
    "Dolfyn.config_found",
    "Dolfyn.config_bt_false"
   ],
   "note": "Proved for all record types; for bottom track only the configuration word is compared, and differing beams are accepted (refuted)."
  },
  {
   "property": "C102",
   "status": "partial",
   "theorems": [
    "Dolfyn.last_whole_spec",
    "Dolfyn.last_whole_uniform",
    "Dolfyn.last_whole_false"
   ],
   "note": "Exact rule proved for every file; the property holds for ensembles of one size and is refuted for a complete last ensemble of another size."
  },
  {
   "property": "C103",
   "status": "partial",
   "theorems": [
    "Dolfyn.head_plain",
    "Dolfyn.head_get",
    "Dolfyn.head_read",
    "Dolfyn.head_get_false",
    "Dolfyn.head_repeat_false",
    "Dolfyn.head_item_refused"
   ],
   "note": "Proved for plain commands and for GET commands given once whose name does not begin with G, E or T; refuted otherwise."
  },
  {
   "property": "C104",
   "status": "partial",
   "theorems": [
    "Dolfyn.reduce_burst",
    "Dolfyn.range_cells",
    "Dolfyn.reduce_avg_false",
    "Dolfyn.reduce_b5_false"
   ],
   "note": "Proved for files with burst profiles and no averaged profiles; refuted for the others."
  },
  {
   "property": "C105",
   "status": "partial",
   "theorems": [
    "Dolfyn.split_vars",
    "Dolfyn.split_equal_false",
    "Dolfyn.split_dec_false"
   ],
   "note": "Partition proved for every successful split; profiles of equal length make the call raise, and the declination is not applied to the second dataset (both refuted)."
  },
  {
   "property": "C106",
   "status": "partial",
   "theorems": [
    "Dolfyn.sf_exact",
    "Dolfyn.sf_scale",
    "Dolfyn.sfLags_mem",
    "Dolfyn.sf_high_false"
   ],
   "note": "Exactness and scaling proved; ranges beyond the sampling rate raise (refuted)."
  },
  {
   "property": "C107",
   "status": "partial",
   "theorems": [
    "Dolfyn.te01_exact",
    "Dolfyn.te01Int_pos",
    "Dolfyn.te01_hz_false",
    "Dolfyn.upAngle_range",
    "Dolfyn.upAngle_shift",
    "Dolfyn.upAngle_neg"
   ],
   "note": "Proved for rad/s; refuted for Hz, where the result is too small by 2 pi."
  },
  {
   "property": "C108",
   "status": "partial",
   "theorems": [
    "Dolfyn.vector_room",
    "Dolfyn.awac_room",
    "Dolfyn.awac_room_false",
    "Dolfyn.vector_slow_false",
    "Dolfyn.code_spacing_bytes",
    "Dolfyn.room_vector_bytes",
    "Dolfyn.room_awac_bytes",
    "Dolfyn.findnextid_zero_false"
   ],
   "note": "Proved for evenly spaced system records or profiles; refuted for AWAC files whose spacing shrinks later, and for rates below 1 Hz."
  },
  {
   "property": "C109",
   "status": "partial",
   "theorems": [
    "Dolfyn.vec_data_decoded",
    "Dolfyn.vno_data_decoded",
    "Dolfyn.vec_sysdata_decoded_partial",
    "Dolfyn.vec_sysdata_cold_false",
    "Dolfyn.awac_profile_decoded_partial",
    "Dolfyn.awac_negative_false",
    "Dolfyn.awac_four_beams"
   ],
   "note": "Exact for all Vector and Vectrino samples and, for system data and AWAC profiles, all values except negative temperatures (both) and negative pitch and roll (AWAC), which are refuted."
  },
  {
   "property": "C110",
   "status": "partial",
   "theorems": [
    "Dolfyn.awac_range_spec",
    "Dolfyn.awac_range_unknown",
    "Dolfyn.awac_range_drift_false",
    "Dolfyn.head_matrix_decoded"
   ],
   "note": "Spacing, first cell and a bound of half a centimetre per cell proved; the stronger claim that ranges do not drift from the nominal ones is refuted."
  },
  {
   "property": "C111",
   "status": "partial",
   "theorems": [
    "Dolfyn.tilt_range",
    "Dolfyn.tilt_zero_iff",
    "Dolfyn.tilt_rdi",
    "Dolfyn.tilt_nortek_partial",
    "Dolfyn.tilt_nortek_false"
   ],
   "note": "Exact for RDI attitudes; for Nortek attitudes proved to be an underestimate that is exact when pitch or roll is zero, and refuted otherwise."
  },
  {
   "property": "C112",
   "status": "partial",
   "theorems": [
    "Dolfyn.rotate_vars_mem_partial",
    "Dolfyn.rotate_vars_nodup",
    "Dolfyn.rotate_vars_missing_false",
    "Dolfyn.coord_sys_shared_partial",
    "Dolfyn.coord_sys_mixed_false",
    "Dolfyn.coord_sys_needs_profiles",
    "Dolfyn.orientation_codes"
   ],
   "note": "Uniqueness proved in general; membership for burst records with velocities; the frame for files whose burst and averaged velocities share axes. Refuted otherwise (both). Values of the variables are not modelled here."
  },
  {
   "property": "C113",
   "status": "proved",
   "theorems": [
    "Dolfyn.clean_skips_spec"
   ],
   "note": ""
  },
  {
   "property": "C114",
   "status": "proved",
   "theorems": [
    "Dolfyn.epoch2date_near",
    "Dolfyn.epoch2date_mono",
    "Dolfyn.epoch2date_offset",
    "Dolfyn.dt642date_date2dt64"
   ],
   "note": ""
  },
  {
   "property": "C115",
   "status": "proved",
   "theorems": [
    "Dolfyn.date2str_parse",
    "Dolfyn.date2str_injective"
   ],
   "note": ""
  },
  {
   "property": "C116",
   "status": "partial",
   "theorems": [
    "Dolfyn.set_coords_labels_partial",
    "Dolfyn.set_coords_beam",
    "Dolfyn.set_coords_distinct",
    "Dolfyn.set_coords_three_beams_false",
    "Dolfyn.set_coords_forced_false",
    "Dolfyn.set_coords_unknown"
   ],
   "note": "Proved for the usual number of components of each make and for beam coordinates with any number. Refuted for three-beam Signatures (ValueError) and forced=True (KeyError)."
  },
  {
   "property": "C117",
   "status": "proved",
   "theorems": [
    "Dolfyn.velPsd_units",
    "Dolfyn.perRadian_energy",
    "Dolfyn.velPsd_bad_units",
    "Dolfyn.calcFreq_units"
   ],
   "note": ""
  },
  {
   "property": "C118",
   "status": "partial",
   "theorems": [
    "Dolfyn.velPsd_aligned",
    "Dolfyn.velPsd_three",
    "Dolfyn.velPsd_override_false"
   ],
   "note": "Proved for the binner bin length (any FFT length, window; noise free for the values); refuted for a per-call n_bin. Integer bin lengths, no missing samples."
  },
  {
   "property": "C119",
   "status": "partial",
   "theorems": [
    "Dolfyn.tkeOf_partial",
    "Dolfyn.tkeOf_missing_false",
    "Dolfyn.iTke_spec",
    "Dolfyn.eCoh_spec",
    "Dolfyn.eCoh_le_tke"
   ],
   "note": "Missing variances give 0 instead of NaN (refuted); bound of E_coh for components missing together."
  },
  {
   "property": "C120",
   "status": "partial",
   "theorems": [
    "Dolfyn.advCsd_units",
    "Dolfyn.advCsd_aligned",
    "Dolfyn.advCsd_spec",
    "Dolfyn.advCsd_override_false"
   ],
   "note": "Proved for the binner bin length; refuted for a per-call n_bin. Integer bin lengths, no missing samples."
  },
  {
   "property": "C121",
   "status": "partial",
   "theorems": [
    "Dolfyn.medfilt_median",
    "Dolfyn.medfilt_majority",
    "Dolfyn.medfilt_const",
    "Dolfyn.medfiltOrient_imu_partial",
    "Dolfyn.medfiltOrient_angles",
    "Dolfyn.medfiltOrient_signs_false",
    "Dolfyn.medfiltOrient_even"
   ],
   "note": "Proved except for filtered quaternions that vanish; refuted there."
  },
  {
   "property": "C122",
   "status": "partial",
   "theorems": [
    "Dolfyn.rdi_reads_columns",
    "Dolfyn.rdi_cell_values",
    "Dolfyn.rdi_leader_values",
    "Dolfyn.rdi_time_values",
    "Dolfyn.rdi_bottom_values",
    "Dolfyn.rdi_alt_values",
    "Dolfyn.rdi_bottom_stale",
    "Dolfyn.rdi_bottom_bad",
    "Dolfyn.rdi_bottom_false",
    "Dolfyn.winriver_bottom_values_partial",
    "Dolfyn.winriver_bottom_range_false",
    "Dolfyn.rdi_not_yet",
    "Dolfyn.rdi_not_yet_false",
    "Dolfyn.rdi_second_values"
   ],
   "note": "Recorded values proved for single-profile files of complete ensembles with constant cells (numbers exact; the float32 roundings are C162). Refuted for missing data: an ensemble without bottom track repeats the previous one, before the first one amplitudes, correlations and percentages are uninitialised memory (rdi_not_yet_false), and bad bottom-track velocities stay -32.768 m/s. In WinRiver files the high bytes of bottom ranges are taken from the wrong place (winriver_bottom_range_false)."
  },
  {
   "property": "C123",
   "status": "partial",
   "theorems": [
    "Dolfyn.rdi_names",
    "Dolfyn.rdi_shape",
    "Dolfyn.rdi_range",
    "Dolfyn.rdi_fs",
    "Dolfyn.rdi_vel_layout",
    "Dolfyn.rdi_opens",
    "Dolfyn.rdi_short_false",
    "Dolfyn.rdi_first_time_false"
   ],
   "note": "Proved for single-profile files of complete ensembles with constant cells; refuted for files with one ensemble (or nens=0) and for an invalid first clock. The last ensemble of a file is never read (C51)."
  },
  {
   "property": "C124",
   "status": "partial",
   "theorems": [
    "Dolfyn.rdi_config_decoded",
    "Dolfyn.rdi_config",
    "Dolfyn.rdi_model_name",
    "Dolfyn.rdi_sensor_bits",
    "Dolfyn.rdi_config_other_angle_false"
   ],
   "note": "Proved for all setups with beam-angle codes 0-2; code 3 is refuted. When the setup changes within a file the attributes are those of the last ensemble read. Numbers are exact instead of float."
  },
  {
   "property": "C125",
   "status": "partial",
   "theorems": [
    "Dolfyn.quasi_pairs",
    "Dolfyn.quasi_order_false",
    "Dolfyn.quasi_sign_false",
    "Dolfyn.coherence_noise_false"
   ],
   "note": "Proved for the shorter record first; refuted for the longer record first (conjugated result, noise levels exchanged)."
  },
  {
   "property": "C126",
   "status": "proved",
   "theorems": [
    "Dolfyn.filtfreqs_spec",
    "Dolfyn.velacc_integral",
    "Dolfyn.velacc_highpass",
    "Dolfyn.velacc_step"
   ],
   "note": ""
  },
  {
   "property": "C127",
   "status": "partial",
   "theorems": [
    "Dolfyn.corr_filter_keeps_false",
    "Dolfyn.corr_filter_others"
   ],
   "note": "False of the code: correlation and amplitude are blanked too. Proved: beams above the threshold keep both."
  },
  {
   "property": "C128",
   "status": "partial",
   "theorems": [
    "Dolfyn.nortek_setup_partial",
    "Dolfyn.nortek_burst_mode_false",
    "Dolfyn.nortek_version",
    "Dolfyn.nortek_hardware",
    "Dolfyn.nortek_head"
   ],
   "note": "False for the burst mode: burst_mode is reported as True for every file (nortek_burst_mode_false). All other fields of the three records are proved to be reported as recorded. Texts are ASCII; fields that are only kept in the reader and not in the dataset (PwrCtrlReg, A1, B0, B1, deployment_time, ProLogID) are not followed further."
  },
  {
   "property": "C129",
   "status": "partial",
   "theorems": [
    "Dolfyn.nortek_opens",
    "Dolfyn.nortek_signature",
    "Dolfyn.nortek_big_endian_false",
    "Dolfyn.nortek_vectrino_matrix_false",
    "Dolfyn.nortek_duty",
    "Dolfyn.nortek_burst_length_false",
    "Dolfyn.nortek_vectrino_word"
   ],
   "note": "Proved for little-endian files read without checksum verification (C43 shows that verification rejects good records). False for big-endian files, for Vectrino serial numbers without a blank, and for the description of bursts at 1 Hz and below."
  },
  {
   "property": "C80",
   "status": "partial",
   "theorems": [
    "Dolfyn.nens_is_prefix",
    "Dolfyn.nortek_nens_checked",
    "Dolfyn.nortek_start_ignored_false",
    "Dolfyn.nens_exact",
    "Dolfyn.nens_more",
    "Dolfyn.nens_one_imu_false"
   ],
   "note": "Proved for a limit. For nens=(start, stop), documented, the start is ignored (nortek_start_ignored_false). nens_exact says exactly which records are stored; with nens=1 the IMU record of the first sample is missed (nens_one_imu_false)."
  },
  {
   "property": "C130",
   "status": "partial",
   "theorems": [
    "Dolfyn.fillgaps_keeps",
    "Dolfyn.fillgaps_unlimited",
    "Dolfyn.fillgaps_limit",
    "Dolfyn.fillgaps_short",
    "Dolfyn.fillgaps_maxgap_false",
    "Dolfyn.fillgaps_dim"
   ],
   "note": "False for gaps longer than maxgap: their first maxgap samples are filled (fillgaps_maxgap_false). fillgaps_limit says exactly what is filled. The interpolator is a parameter; the rule for limit is that of xarray."
  },
  {
   "property": "C131",
   "status": "partial",
   "theorems": [
    "Dolfyn.save_encoding",
    "Dolfyn.save_time_units",
    "Dolfyn.save_each",
    "Dolfyn.save_user_encoding_false",
    "Dolfyn.save_changes_caller_false",
    "Dolfyn.decode_idempotent"
   ],
   "note": "False for the encoding argument (discarded for every variable of the dataset) and for the dataset in memory (its encodings change). Proved: the encoding each variable is saved with, entry by entry. xr.decode_cf and to_netcdf are not modelled."
  },
  {
   "property": "C132",
   "status": "partial",
   "theorems": [
    "Dolfyn.binner_call_attrs",
    "Dolfyn.binner_call_input_partial",
    "Dolfyn.binner_call_input_false"
   ],
   "note": "False for the input: attributes whose names contain config are removed from it. The averages, spectra and stresses themselves are C12-C30 and C58 ff."
  },
  {
   "property": "C133",
   "status": "partial",
   "theorems": [
    "Dolfyn.stress4_any_frame",
    "Dolfyn.stress5_any_frame",
    "Dolfyn.stress4_call_signature",
    "Dolfyn.stress4_changes_caller_false",
    "Dolfyn.stress5_changes_caller_false",
    "Dolfyn.stress_angle_argument_false",
    "Dolfyn.stress_binner_noise_false",
    "Dolfyn.stress_orientation",
    "Dolfyn.stress4_refuses"
   ],
   "note": "Independence of the frame proved for all instruments. False for the rest: the dataset is left rotated (stress4_changes_caller_false, stress5_changes_caller_false), the beam_angle argument is ignored when the dataset has one (stress_angle_argument_false), the noise of the binner is ignored (stress_binner_noise_false). Missing velocities are not part of the rotation model."
  },
  {
   "property": "C134",
   "status": "partial",
   "theorems": [
    "Dolfyn.ti_coords",
    "Dolfyn.new_coords_partial",
    "Dolfyn.new_coords_false",
    "Dolfyn.new_coords_b5_false"
   ],
   "note": "False for coherence, phase and covariances of data along a time dimension that is not called time (new_coords_false): they raise AttributeError."
  },
  {
   "property": "C136",
   "status": "partial",
   "theorems": [
    "Dolfyn.psd_missing_elsewhere",
    "Dolfyn.psd_missing_here",
    "Dolfyn.psd_missing_noise_false",
    "Dolfyn.psd_missing_noise_witness",
    "Dolfyn.psdN_override_false"
   ],
   "note": "Proved without noise level. With one, values below the level become missing in every bin as soon as anything is missing in the record (psd_missing_noise_false). Default padding and step, integer bin lengths; bins of at least two FFT lengths for the second half."
  },
  {
   "property": "C137",
   "status": "partial",
   "theorems": [
    "Dolfyn.rdi_varying_reads",
    "Dolfyn.rdi_varying_cells",
    "Dolfyn.rdi_varying_leader",
    "Dolfyn.rdi_varying_time",
    "Dolfyn.rdi_varying_bottom",
    "Dolfyn.rdi_varying_shape",
    "Dolfyn.rdi_cells_not_yet",
    "Dolfyn.rdi_varying_range",
    "Dolfyn.rdi_cells_stale",
    "Dolfyn.rdi_cells_false",
    "Dolfyn.rdi_growth_zero",
    "Dolfyn.rdi_growth_zero_false",
    "Dolfyn.rdi_range_false",
    "Dolfyn.rdi_late_variable",
    "Dolfyn.rdi_late_variable_false"
   ],
   "note": "Proved for the cells an ensemble has, when every kind of cell data occurs in the first ensemble. False for the cells it lacks (they show the ensemble before: rdi_cells_stale, rdi_cells_false; or zeros behind a growth: rdi_growth_zero), for the range coordinate when the cell size changes (rdi_range_false), and a kind of data that first occurs behind a growth cannot be read (rdi_late_variable)."
  },
  {
   "property": "C138",
   "status": "partial",
   "theorems": [
    "Dolfyn.stress5_formula",
    "Dolfyn.stress5_tilt_signature_partial",
    "Dolfyn.stress5_tilt_trdi_partial",
    "Dolfyn.stress5_tilt_rate",
    "Dolfyn.stress5_tilt_trdi_rate",
    "Dolfyn.stress5_tilt_false",
    "Dolfyn.fixed_uw_exact"
   ],
   "note": "Proved for the variance along x. False for the stresses: the correction is too large by the factor 2/cos(beam angle), since the code has cos(th)*2 for cos(th)**2 (stress5_tilt_rate, stress5_tilt_false; fixed_uw_exact shows that the exponent repairs it), and for TRDI instruments the pitch has the wrong sign (stress5_tilt_trdi_rate). The other two variances are already wrong at zero tilt (C60). Downward-facing Signatures not covered."
  },
  {
   "property": "C139",
   "status": "proved",
   "theorems": [
    "Dolfyn.turbulence_frame_invariant",
    "Dolfyn.reynolds_turned",
    "Dolfyn.psd_turned",
    "Dolfyn.velPsd_turned",
    "Dolfyn.rotate2_steady"
   ],
   "note": "Complete records, at least two samples per bin; integer bin lengths; spectra with default padding and step. For Signatures the variables with three components."
  },
  {
   "property": "C140",
   "status": "partial",
   "theorems": [
    "Dolfyn.avg_rotate_commute",
    "Dolfyn.avg_exists",
    "Dolfyn.avg_to_beam_false",
    "Dolfyn.avg_rotate_moving_false"
   ],
   "note": "Proved between inst, earth and principal with a stored orientation matrix and complete records. False for beam coordinates: the matrix of the beams is not part of the averages (avg_to_beam_false). An instrument that turns within a bin breaks it (avg_rotate_moving_false)."
  },
  {
   "property": "C142",
   "status": "partial",
   "theorems": [
    "Dolfyn.ad_burst_units",
    "Dolfyn.ad_echo_units",
    "Dolfyn.ad_bt_units_partial",
    "Dolfyn.ad_bt_mag_false",
    "Dolfyn.ad_cold_false",
    "Dolfyn.ad_struct_refused"
   ],
   "note": "Proved for velocity and echo sounder records, and for bottom-track records except the magnetometer, which keeps tenths of microtesla under the label uT (ad_bt_mag_false). Water temperature is read unsigned, so it is never negative (ad_cold_false). Rounding to float32 is C162; 32-bit floats decoded by a parameter."
  },
  {
   "property": "C143",
   "status": "partial",
   "theorems": [
    "Dolfyn.ad_file_values_partial",
    "Dolfyn.ad_column_last_false",
    "Dolfyn.ad2cp_stored_inside"
   ],
   "note": "Proved for two or more ensembles that have one data record of each type in one order, with any other records in between, constant configuration and increasing counters, without raw altimeter records; the last ensemble is included when all have one size and the file ends with it. Otherwise see C88 (raw altimeter), C93 (skipped records), C102 (last ensemble); the magnetometer of bottom-track records keeps tenths (C142). A single ensemble raises (single_ensemble_false, C102)."
  },
  {
   "property": "C144",
   "status": "partial",
   "theorems": [
    "Dolfyn.index_again_partial",
    "Dolfyn.index_stale_witness_false",
    "Dolfyn.index_stale_false",
    "Dolfyn.index_truncated_false",
    "Dolfyn.index_unversioned_false"
   ],
   "note": "Proved for unchanged files of complete records: first, second and forced reading agree. False for a file that has changed since (index_stale_witness_false), after a failed reading (index_truncated_false) and for index files without version (index_unversioned_false)."
  },
  {
   "property": "C145",
   "status": "partial",
   "theorems": [
    "Dolfyn.rdi_resync_partial",
    "Dolfyn.rdi_resync_sound",
    "Dolfyn.rdi_resync_false",
    "Dolfyn.rdi_resync_stray_false",
    "Dolfyn.rdi_resync_before_false"
   ],
   "note": "Proved: the search ends at the first place where an ensemble begins (rdi_resync_partial), and what it accepts has a length confirmed by the next record (rdi_resync_sound). False: an ensemble one byte further on is missed, because the loop compares the first byte with the third (rdi_resync_false); stray bytes 7F 7F with a length beyond the end of the file end the reading (rdi_resync_stray_false); a complete ensemble followed by stray bytes is passed over (rdi_resync_before_false)."
  },
  {
   "property": "C146",
   "status": "partial",
   "theorems": [
    "Dolfyn.vector_file_partial",
    "Dolfyn.imu_units",
    "Dolfyn.vector_phantom_false",
    "Dolfyn.vector_whole_partial",
    "Dolfyn.imu_orient"
   ],
   "note": "Proved for continuous recordings (no bursts) with three or more system records, temperatures not below zero, one IMU type, no checksum errors: values, times, housekeeping and IMU values. The number of entries is right if an IMU record follows each sample. False without IMU: the reader makes more room than needed and the surplus is kept, as samples with running times, NaN velocity and amplitude 0 (vector_phantom_false). Housekeeping is missing before the first and behind the last system record."
  },
  {
   "property": "C147",
   "status": "partial",
   "theorems": [
    "Dolfyn.awac_file_partial",
    "Dolfyn.awac_whole_partial"
   ],
   "note": "Whole files from the first byte, with profiles equally far apart and records of even length. Negative headings, tilts and temperatures come out wrong (C109); with waves the reader fails (C81). The analogue inputs are not followed. Records of check data (0x07) make the reader raise UnboundLocalError."
  },
  {
   "property": "C148",
   "status": "partial",
   "theorems": [
    "Dolfyn.repr_duration",
    "Dolfyn.repr_summary",
    "Dolfyn.repr_no_time_false",
    "Dolfyn.repr_others_false",
    "Dolfyn.repr_limit_false"
   ],
   "note": "False: without time the summary raises (repr_no_time_false), the hint at others appears although all are shown (repr_others_false), thirteen instead of twelve matches are shown (repr_limit_false). Formatting of numbers and dates is not modelled."
  },
  {
   "property": "C149",
   "status": "partial",
   "theorems": [
    "Dolfyn.awac_earth",
    "Dolfyn.vector_earth_partial",
    "Dolfyn.vector_north_false"
   ],
   "note": "False: the heading of a Vector is interpolated linearly between system records, so it runs through south when it passes north (vector_north_false). Vectors are continuous recordings without IMU whose system records agree about up and down; a head matrix only for velocities not recorded in earth coordinates; three beams. The orientation bit of an AWAC is not used by the code."
  },
  {
   "property": "C150",
   "status": "partial",
   "theorems": [
    "Dolfyn.rdi_earth_partial",
    "Dolfyn.rdi_earth_flow",
    "Dolfyn.rdi_earth_setup_false",
    "Dolfyn.rdi_earth_bottom_false"
   ],
   "note": "Partial: the code uses the setup of the last ensemble read for the whole file (rdi_earth_setup_false) and rotates bad bottom velocities as data (rdi_earth_bottom_false); a recorded declination hides that of the userdata (C53). Proved for all files of regular ensembles with the setup of the last ensemble. Surface-layer profiles are not followed."
  },
  {
   "property": "C151",
   "status": "partial",
   "theorems": [
    "Dolfyn.sig_earth_partial",
    "Dolfyn.sig_earth_actual",
    "Dolfyn.sig_orient_false",
    "Dolfyn.sig_sensors_enu_false",
    "Dolfyn.sig_sensors_beam3_false"
   ],
   "note": "False of the code in three ways: the orientation of most pings is used for all pings (sig_orient_false), the sensors of files in earth coordinates are not rotated although the dataset says so (sig_sensors_enu_false), and the sensors of three-beam files in beam coordinates are multiplied with the beam matrix (sig_sensors_beam3_false). Proved otherwise; sig_earth_actual says what happens in all cases. A bottom track in beam coordinates needs as many beams as the velocities; every type has a record in every ensemble. The head of the file is given as its parsed form (C46)."
  },
  {
   "property": "C152",
   "status": "partial",
   "theorems": [
    "Dolfyn.vector_imu_earth_partial",
    "Dolfyn.vector_imu_actual",
    "Dolfyn.vector_imu_beam_false",
    "Dolfyn.vector_imu_enu_false"
   ],
   "note": "False of the code for the sensors of the IMU: in files in beam coordinates they are multiplied with the matrix of the beams because they have three components too (vector_imu_beam_false); in files in earth coordinates they stay along the axes of the instrument although the dataset says earth (vector_imu_enu_false). The velocity is right in all three, the sensors in files in instrument coordinates; vector_imu_actual says what happens in all cases. Continuous recordings with an IMU record behind each sample; type 211 with system records that agree about up and down; a head matrix only for velocities not recorded in earth coordinates; a declination with files in earth coordinates needs recorded orthonormal matrices."
  },
  {
   "property": "C153",
   "status": "partial",
   "theorems": [
    "Dolfyn.sig_file_partial",
    "Dolfyn.sig_head",
    "Dolfyn.sig_head_line",
    "Dolfyn.sig_magic"
   ],
   "note": "Partial as C151 is (orientation of most pings, sensors in earth coordinates or with three beams). Proved for heads of printable ASCII in which the GET commands are there once; a head with a line without a comma makes the file unreadable (sig_head_line). Two profiles are not followed here, the index is made anew."
  },
  {
   "property": "C73",
   "status": "partial",
   "theorems": [
    "Dolfyn.ti_spec",
    "Dolfyn.ti_threshold_false",
    "Dolfyn.ti_below_noise",
    "Dolfyn.ti_numpy_raises",
    "Dolfyn.ti_missing",
    "Dolfyn.ti_trend"
   ],
   "note": "The threshold is false of the code (the mask is dropped). The values are proved with and without detrending, and with missing samples about the mean (ti_missing)."
  },
  {
   "property": "C154",
   "status": "partial",
   "theorems": [
    "Dolfyn.burst_file_partial",
    "Dolfyn.burst_complete",
    "Dolfyn.burst_phantom_false",
    "Dolfyn.burst_whole_partial"
   ],
   "note": "Proved for bursts with three or more system records each, whose clock gains 1/fs per sample, of equal length except for the last one; temperatures not below zero, one IMU type, no checksum errors, enough room (C108). The number of entries is right if an IMU record follows each sample or if all bursts are complete. False without IMU when the last burst is not complete: with room to spare the burst is filled up with entries with running times, NaN velocity and amplitude 0 (burst_phantom_false). Housekeeping is missing before the first and behind the last system record."
  },
  {
   "property": "C155",
   "status": "proved",
   "theorems": [
    "Dolfyn.despike_affine",
    "Dolfyn.phase_affine",
    "Dolfyn.phaseSpace_affine",
    "Dolfyn.phase_outside",
    "Dolfyn.phase_constant",
    "Dolfyn.lone_spike_found",
    "Dolfyn.gap_hides_spike_false"
   ],
   "note": "Exact real arithmetic. phase_outside is for ellipsoids with positive half axes; the lone spike is at least four samples from the ends of the block."
  },
  {
   "property": "C156",
   "status": "partial",
   "theorems": [
    "Dolfyn.despike_split",
    "Dolfyn.despike_unsplit",
    "Dolfyn.despike_missing_false",
    "Dolfyn.gap_hides_spike_false",
    "Dolfyn.phase_missing"
   ],
   "note": "False of the code: a missing sample keeps all samples of its block (5000 by default) from being flagged; a record is split at long gaps (a tenth of a block) only if there are more than two of them and it does not begin with a gap. The split and the unsplit case are characterised for all records; the threshold test is a parameter there."
  },
  {
   "property": "C37",
   "status": "proved",
   "theorems": [
    "Dolfyn.gn2002_spec",
    "Dolfyn.gn2002_empty",
    "Dolfyn.despike_split",
    "Dolfyn.despike_unsplit"
   ],
   "note": "The threshold test is a parameter here; it is followed in C71 and C155. Records with gaps: C156."
  },
  {
   "property": "C157",
   "status": "partial",
   "theorems": [
    "Dolfyn.nan_beyond_dataset",
    "Dolfyn.nan_beyond_inplace",
    "Dolfyn.nan_beyond_twice",
    "Dolfyn.nan_beyond_offset",
    "Dolfyn.nan_beyond_refuses",
    "Dolfyn.nan_beyond_refuses_echo",
    "Dolfyn.nan_beyond_needs",
    "Dolfyn.nan_beyond_half_done_false",
    "Dolfyn.nan_beyond_own_range_false",
    "Dolfyn.nan_beyond_late_offset_false"
   ],
   "note": "Proved for all datasets whose variables over range have the cell and profile counts of the mask. False of the code otherwise: other counts (surface layer, fifth beam, average profile, echo sounder) raise IndexError, in place with some variables already blanked; a fifth beam with equal counts is blanked by the ranges of the other beams; a deployment height set after the depth was found moves the limit."
  },
  {
   "property": "C95",
   "status": "partial",
   "theorems": [
    "Dolfyn.xcov_spec",
    "Dolfyn.xcov_single",
    "Dolfyn.xcov_normed",
    "Dolfyn.xcov_label_false",
    "Dolfyn.xcov_drift_false",
    "Dolfyn.xcov_drift_witness",
    "Dolfyn.pairBin_short",
    "Dolfyn.pairBin_near"
   ],
   "note": "Values and bound proved for bins that fill the record or have a power of two samples. For other bins the bin size of the first series, a rounded quotient of doubles, can be one sample short, and the series then drift apart (proved, with record lengths where it happens). The lag labels are wrong in the code (proved)."
  },
  {
   "property": "C96",
   "status": "partial",
   "theorems": [
    "Dolfyn.coh_same_span",
    "Dolfyn.coh_bins",
    "Dolfyn.coh_drift_false",
    "Dolfyn.coh_nfft_false",
    "Dolfyn.csd_same_span_partial",
    "Dolfyn.csd_rates",
    "Dolfyn.csd_rates_false",
    "Dolfyn.pairBin_rate",
    "Dolfyn.pairBin_short",
    "Dolfyn.pairBin_near"
   ],
   "note": "Coherence and phase angle proved for every integer rate ratio where bins fill the record or have a power of two samples; for other bins refuted at record lengths where the double-precision bin size comes out one short. Cross spectra only for equal lengths, refuted for different rates."
  },
  {
   "property": "C158",
   "status": "partial",
   "theorems": [
    "Dolfyn.dt642epochF_near",
    "Dolfyn.epoch2dt64F_near",
    "Dolfyn.epochF_roundtrip",
    "Dolfyn.epochF_seconds",
    "Dolfyn.epochF_mono",
    "Dolfyn.epochF_no_drift",
    "Dolfyn.epochF_roundtrip_false",
    "Dolfyn.dateF_roundtrip",
    "Dolfyn.epochF_date_roundtrip",
    "Dolfyn.clockF_near",
    "Dolfyn.date2matlabF_near",
    "Dolfyn.matlabF_roundtrip",
    "Dolfyn.fl64_err",
    "Dolfyn.fl64_exact",
    "Dolfyn.fl64_mono",
    "Dolfyn.matlab2dateF_outside"
   ],
   "note": "Everything but exactness of the datetime64 round trip, which is refuted."
  },
  {
   "property": "C141",
   "status": "partial",
   "theorems": [
    "Dolfyn.sf_call_values",
    "Dolfyn.sf_call_hits",
    "Dolfyn.sf_call_or_zero",
    "Dolfyn.sf_separations",
    "Dolfyn.sf_separations_exact",
    "Dolfyn.sf_hole_false",
    "Dolfyn.sf_hole_sizes_false",
    "Dolfyn.sf_dissipation_high_false",
    "Dolfyn.sf_label_false",
    "Dolfyn.sf_too_far_false"
   ],
   "note": "Cell size, separations and their numbers are computed in double precision. Proved for complete records: every structure function, the least-squares line and the dissipation for cell sizes with few binary digits (0.25, 0.5, 1, 2 m, ...). False for other sizes: for cells of 5, 10, 20, 40 or 80 cm (and 30, 60, 70 cm, ...) the number of a separation is rounded down and its structure function stays zero for every record (sf_hole_false, sf_hole_sizes_false); with cells of 20 cm and the default range the dissipation comes out too high (sf_dissipation_high_false); otherwise every entry is right or zero (sf_call_or_zero). False for the labels: D(z,r) is stored at cell z+r (sf_label_false); a range beyond the profile raises ValueError (sf_too_far_false). Not covered: values for records with gaps (the fit is a parameter then), rounding of velocities to float32, float32 ranges (AWAC)."
  },
  {
   "property": "C135",
   "status": "partial",
   "theorems": [
    "Dolfyn.vmdas_partial",
    "Dolfyn.vmdas_bad_date",
    "Dolfyn.vmdas_attitude_false",
    "Dolfyn.vmdas_flags_false",
    "Dolfyn.position_step_false",
    "Dolfyn.winriver_position_partial",
    "Dolfyn.winriver_no_fix",
    "Dolfyn.winriver_equator_false",
    "Dolfyn.winriver_meridian_false",
    "Dolfyn.winriver_west_false",
    "Dolfyn.gga_spec",
    "Dolfyn.gga_date_false",
    "Dolfyn.vtg_spec",
    "Dolfyn.dbt_spec",
    "Dolfyn.hdt_spec",
    "Dolfyn.no_sentence_keeps_false"
   ],
   "note": "Values proved for every block, positions and flags as stored in single precision; false for negative pitch and roll of VMDAS (vmdas_attitude_false), flags above the eighth bit (vmdas_flags_false), positions to the recorded centimetre (position_step_false; over 3 m for western longitudes of WinRiver, winriver_west_false), positions on the equator or zero meridian (winriver_equator_false, winriver_meridian_false), the date of position sentences when the clock of the instrument is on another date (gga_date_false) and ensembles without sentence (no_sentence_keeps_false). Other float32 roundings are left out."
  },
  {
   "property": "C159",
   "status": "partial",
   "theorems": [
    "Dolfyn.sig_sensors_partial",
    "Dolfyn.sig_sensors_missing",
    "Dolfyn.sig_sensors_missing_false"
   ],
   "note": "Proved for pings with both records. False when the fifth-beam record of a ping is missing: its column still holds the zeros it was created with, so every mean is halved and the heading drawn to north (1500 m/s becomes 750 m/s in a concrete file). Single precision of the recorded values is C162, of the means left out."
  },
  {
   "property": "C160",
   "status": "partial",
   "theorems": [
    "Dolfyn.csd_missing_elsewhere",
    "Dolfyn.csd_missing_here",
    "Dolfyn.coherence_complete",
    "Dolfyn.coherence_missing",
    "Dolfyn.phaseAngleN_first",
    "Dolfyn.phase_missing_partial",
    "Dolfyn.phase_missing_false"
   ],
   "note": "Proved for cross spectra and coherence. For the phase only gaps in the first record and in the first segment of the second are noticed; gaps in the second record after that are ignored (psd.py:430 takes both spectra from the first record), which refutes the rest. Samples at the very end that no segment reaches are excepted."
  },
  {
   "property": "C161",
   "status": "partial",
   "theorems": [
    "Dolfyn.nortek_ends_partial",
    "Dolfyn.reader_terminates",
    "Dolfyn.nortek_zero_size_false",
    "Dolfyn.ad2cp_ends_partial",
    "Dolfyn.ad2cp_read_ends",
    "Dolfyn.adIndex_loops_false",
    "Dolfyn.rdi_open_ends",
    "Dolfyn.rdi_ends_partial",
    "Dolfyn.rdi_ends_unaided",
    "Dolfyn.rdi_hangs_false",
    "Dolfyn.rdi_ends_unless_stuck",
    "Dolfyn.rdi_ends_counted"
   ],
   "note": "Proved for every byte sequence: Nortek files without a size field of 0 behind a sync byte and identifier; indexing of AD2CP files whose headers have no size of -10 or less as a signed number, and reading from any index; opening of any TRDI file, and reading it when no WinRiver data are met and VMDAS did not write it. False: every valid Nortek configuration followed by a record of size 0 is never opened (nortek_zero_size_false), likewise AD2CP with size 65526 (adIndex_loops_false) and a WinRiver II file with one wrong offset and ensembles without variable leader (rdi_hangs_false). For every other TRDI file, VMDAS and WinRiver included: reading ends if every ensemble has its variable leader, whatever the offsets (rdi_ends_counted), and the only way not to end is to come to an ensemble without one and to go on from the same place or before (rdi_ends_unless_stuck)."
  },
  {
   "property": "C162",
   "status": "partial",
   "theorems": [
    "Dolfyn.storeLin_near",
    "Dolfyn.storeLin_recovers",
    "Dolfyn.storeLin_lt",
    "Dolfyn.storeQuot_near",
    "Dolfyn.storeQuot_recovers",
    "Dolfyn.scaleSingle_recovers",
    "Dolfyn.nkVelSingle_recovers",
    "Dolfyn.nkPressure_recovers",
    "Dolfyn.rdVelSingle_spec",
    "Dolfyn.rdBottom_recovers",
    "Dolfyn.fl32_int",
    "Dolfyn.single_steps_false"
   ],
   "note": "Proved up to 2^22 steps (2^20 with two factors or a third byte, 2^23 for the pressure of a Vector), false beyond 24 bits (single_steps_false). Positions of GPS are C135. The roundings assume numpy rules: products of integer arrays with Python floats are doubles, in-place products of float32 arrays use the float32 nearest to the factor."
  },
  {
   "property": "C163",
   "status": "partial",
   "theorems": [
    "Dolfyn.bin_time_near",
    "Dolfyn.mean_times_near",
    "Dolfyn.mean_times_regular",
    "Dolfyn.mean_times_increasing",
    "Dolfyn.mean_times_false"
   ],
   "note": "Proved within 21 microseconds for additions at most 40 deep, which the pairwise summation of numpy meets up to about a million samples per bin; bins more than 42 microseconds apart stay in order. False to the nanosecond."
  },
  {
   "property": "C164",
   "status": "partial",
   "theorems": [
    "Dolfyn.vno_file_partial",
    "Dolfyn.vno_whole_partial",
    "Dolfyn.vno_cut_false",
    "Dolfyn.vno_mark_false",
    "Dolfyn.vno_no_event_false",
    "Dolfyn.vno_full_false"
   ],
   "note": "Whole little-endian files from the first byte, with at least two samples, equally far apart, and records of even length; the times are within a quarter of a microsecond plus 5 k^2 / 2^53 sampling intervals. False when the file ends within a sample: there is an entry more, with a time but without velocities and with amplitude 0. False when an event is marked later on: all times move to it. False without an event record: KeyError. With less room than samples reading raises IndexError."
  },
  {
   "property": "C165",
   "status": "partial",
   "theorems": [
    "Dolfyn.meanSingle_near",
    "Dolfyn.var_single_near",
    "Dolfyn.bin_var_single",
    "Dolfyn.var_single_const",
    "Dolfyn.var_constant_false"
   ],
   "note": "Proved: relative error below 47/2^24 plus the square of 43/2^24 of the mean absolute value, for additions at most 40 deep, and 0 for constants with few binary digits. False for constant records in general (var_constant_false). Float32 data; the range of the exponent is not modelled."
  },
  {
   "property": "C166",
   "status": "partial",
   "theorems": [
    "Dolfyn.mean_axis",
    "Dolfyn.var_axis_partial",
    "Dolfyn.demean_axis_partial",
    "Dolfyn.var_axis_one",
    "Dolfyn.var_axis_zero",
    "Dolfyn.var_axis_false",
    "Dolfyn.var_axis_square_false",
    "Dolfyn.demean_axis_false",
    "Dolfyn.demean_axis_zero_false"
   ],
   "note": "True of mean, and of var, std and demean with the axis -1. False of var, std and demean with any other number: it is taken as an axis of the array of bins."
  },
  {
   "property": "C167",
   "status": "partial",
   "theorems": [
    "Dolfyn.surface_values",
    "Dolfyn.surface_range",
    "Dolfyn.surface_missing_false",
    "Dolfyn.surface_stale_false",
    "Dolfyn.surface_rotate_false",
    "Dolfyn.surface_too_many_false",
    "Dolfyn.surface_false"
   ],
   "note": "True of the values that were recorded, in the cells the last leader counts, and of the distances. False of missing velocities (-32.768 m/s instead of NaN), of cells an ensemble does not have (the value of the ensemble before), of cells beyond the last leader (cut off), of more surface-layer cells than main cells (ValueError), and of leaders without velocities (vel_sl is listed for rotation and is absent)."
  },
  {
   "property": "C168",
   "status": "partial",
   "theorems": [
    "Dolfyn.surface_filter_median",
    "Dolfyn.find_surface_smooth",
    "Dolfyn.surface_filter_spike",
    "Dolfyn.surface_filter_even",
    "Dolfyn.surface_filter_first_false",
    "Dolfyn.surface_filter_last_false",
    "Dolfyn.surface_filter_short_false",
    "Dolfyn.surface_filter_gap_false"
   ],
   "note": "True inside the record and of spikes. False at the ends (the smallest depth in reach), of records no longer than half the filter (all lost), and of gaps (never missing). What scipy selects in windows with NaN is a parameter."
  },
  {
   "property": "C169",
   "status": "proved",
   "theorems": [
    "Dolfyn.rotSingle_approx",
    "Dolfyn.rotStore_approx",
    "Dolfyn.rot_back",
    "Dolfyn.rot_accurate",
    "Dolfyn.rot_there_and_back",
    "Dolfyn.nortekOrientF_near",
    "Dolfyn.nk_earth_single",
    "Dolfyn.nk_back_single",
    "Dolfyn.nk_back_recovers",
    "Dolfyn.nk_back_many",
    "Dolfyn.nk_back_exact_false",
    "Dolfyn.rd_back_recovers",
    "Dolfyn.rdiRotF_near",
    "Dolfyn.rd_attitude_recovers"
   ],
   "note": "The accuracy of the library cosines and sines is an assumption; the angles are those whose cosines and sines were taken. The range of the exponent is not modelled. Bit-for-bit equality, which is not claimed, is refuted."
  },
  {
   "property": "C170",
   "status": "partial",
   "theorems": [
    "Dolfyn.nan_beyond_twice",
    "Dolfyn.corr_filter_twice",
    "Dolfyn.corr_filter_rotated_twice",
    "Dolfyn.fill_ens_mean_twice",
    "Dolfyn.fillgaps_twice_partial",
    "Dolfyn.fillgaps_again_false",
    "Dolfyn.medfilt_twice_false",
    "Dolfyn.corr_surface_commute",
    "Dolfyn.corr_surface_order_false"
   ],
   "note": "True of blanking beyond the surface, the correlation filter (in beam and in other coordinates), filling by the mean of windows, and, with NaN, of the order of the first two. False of filling gaps longer than the limit (each call fills further), of the median filter, and of the order when a number not above the threshold is written beyond the surface."
  },
  {
   "property": "C171",
   "status": "partial",
   "theorems": [
    "Dolfyn.collapse_warns_iff",
    "Dolfyn.collapse_warns_partial",
    "Dolfyn.collapse_silent_false",
    "Dolfyn.collapse_zeros_silent_false",
    "Dolfyn.proc_state",
    "Dolfyn.proc_idle_states",
    "Dolfyn.proc_idle_silent_false"
   ],
   "note": "False of the code: when every value occurs at least twice, or the other pings have zero, no warning is given (for all vectors), and a processor short of time in two or more pings, but fewer than half, is reported as idle without a warning. Proved: the exact condition of the warning, that a single differing non-zero ping is announced, and the exact value of every processor state."
  },
  {
   "property": "C172",
   "status": "partial",
   "theorems": [
    "Dolfyn.pieces_bins",
    "Dolfyn.pieces_averages",
    "Dolfyn.pieces_prod",
    "Dolfyn.pieces_tke",
    "Dolfyn.pieces_stress",
    "Dolfyn.pieces_ti",
    "Dolfyn.pieces_psd_partial",
    "Dolfyn.pieces_joint",
    "Dolfyn.pieces_psd_false",
    "Dolfyn.pieces_noise_false",
    "Dolfyn.pieces_stress4",
    "Dolfyn.pieces_stress5",
    "Dolfyn.pieces_sf",
    "Dolfyn.pieces_acov_partial",
    "Dolfyn.pieces_acov_zero",
    "Dolfyn.pieces_xcov_partial",
    "Dolfyn.pieces_acov_false",
    "Dolfyn.pieces_tke_beam",
    "Dolfyn.pieces_tke_beam_noise",
    "Dolfyn.pieces_csd_partial",
    "Dolfyn.pieces_coh_partial",
    "Dolfyn.pieces_window_false",
    "Dolfyn.pieces_csd_false"
   ],
   "note": "True of means, variances, standard deviations, turbulent kinetic energy, stresses (of point velocimeters and from four or five beams), intensity, structure functions and their dissipation. False of spectra of the two bins at the joint when n_fft < n_bin (each piece is padded with zeros where the record has data, witness: a constant record), and of the noise correction (the floor is taken from all bins of the call). All other spectra are the same, for every estimator. Cross spectra, coherences and phase angles (for any estimator), auto- and cross-covariances are those of the record except in the two bins at the joint, where they can differ (pieces_acov_false, pieces_csd_false); the first lag of the auto-covariance is right there too."
  },
  {
   "property": "C173",
   "status": "partial",
   "theorems": [
    "Dolfyn.unknown_record_skipped_partial",
    "Dolfyn.unknown_imu_loses_next_false",
    "Dolfyn.unknown_imu_loses_rest_false",
    "Dolfyn.unknown_imu_unreadable_false",
    "Dolfyn.unknown_imu_converts_again_false"
   ],
   "note": "True of records of an unknown kind (unless a place inside the record looks like the end of a record). False of IMU records of an unknown type (210 included): the reader never resumes at the record behind it and in an example loses all others, the next sample found replaces the last one, a file without other IMU records cannot be read at all (AttributeError, KeyError for 210), and if it precedes the other IMU records the accelerations are too large by the factor 9.80665 (times fs)."
  },
  {
   "property": "C174",
   "status": "partial",
   "theorems": [
    "Dolfyn.altraw_read_partial",
    "Dolfyn.altraw_other_size",
    "Dolfyn.altraw_flag",
    "Dolfyn.altraw_unreadable_false",
    "Dolfyn.altraw_orientation_false",
    "Dolfyn.altraw_sample_partial",
    "Dolfyn.altraw_negative_false"
   ],
   "note": "Proved for all records that need no padding between their numbers: profiles of a multiple of four bytes, an odd number of samples if orientation data follow, an even number of cells if percent good and standard deviations follow. False for all others: the size of the record is computed with the padding of C structures while its contents are packed, so the first record ends the reading (altraw_unreadable_false; altraw_orientation_false: every file with orientation data and an even number of samples). Samples are right if they are not negative (altraw_sample_partial); negative ones come out 256 too large because the array has no sign (altraw_negative_false; numpy wraps, as it does before version 2). The storing into the arrays is covered by C142 and C159."
  },
  {
   "property": "C175",
   "status": "partial",
   "theorems": [
    "Dolfyn.sig_vars_partial",
    "Dolfyn.sig_vars_readable",
    "Dolfyn.percent_good_lost_false",
    "Dolfyn.sig_avg_no_ahrs_false",
    "Dolfyn.sig_altraw_no_altimeter_false"
   ],
   "note": "Proved for all quantities but percent good, for every file that can be read; the files that can be read are characterised exactly (sig_vars_readable). False for percent good, which no dataset has because record and dataset use different names (percent_good_lost_false). False for averaged profiles without orientation sensor (sig_avg_no_ahrs_false) and for raw altimeter pings beside profiles without altimeter (sig_altraw_no_altimeter_false): such files cannot be read. Of raw altimeter pings only the variables of the altimeter are kept, as intended. The errors of the status words are C112, those of the header C103; the making of the xarray dataset is C98 and C112."
  },
  {
   "property": "C176",
   "status": "partial",
   "theorems": [
    "Dolfyn.save_caller_rounds",
    "Dolfyn.save_caller_complex",
    "Dolfyn.save_caller_single",
    "Dolfyn.save_twice",
    "Dolfyn.save_caller_false",
    "Dolfyn.save_twice_false",
    "Dolfyn.saveHeap_file"
   ],
   "note": "True of datasets of single-precision variables only. False otherwise: every double-precision variable before the first complex one is rounded to single precision in memory (save_caller_false: times in seconds off by a minute), the first complex variable leaves its parts behind, and a second save stores them in single precision (save_twice_false). The exact contents in memory and in the second file are proved for all datasets without name clashes. Overflow of single precision is not modelled."
  },
  {
   "property": "C177",
   "status": "partial",
   "theorems": [
    "Dolfyn.avg_rotates",
    "Dolfyn.avg_half",
    "Dolfyn.motion_names",
    "Dolfyn.avg_then_motion",
    "Dolfyn.motion_then_avg",
    "Dolfyn.avg_usable_false"
   ],
   "note": "False: averages made before correct_motion share the list rotate_vars and cannot be rotated afterwards (avg_usable_false); avg_then_motion gives the exact outcome for all datasets: a missing key, and all vectors turned under the old label. Proved for averages of data that is not corrected later (avg_rotates) and for averages made after the correction (motion_then_avg). Rotations between the instrument and the earth frame of a Vector; what correct_motion computes is a parameter here (C64 has it)."
  },
  {
   "property": "C178",
   "status": "proved",
   "theorems": [
    "Dolfyn.motion_sum",
    "Dolfyn.motion_sum_any_frame",
    "Dolfyn.sum_rotates",
    "Dolfyn.sum_twice_false"
   ],
   "note": "For exact arithmetic; lists of names without repetitions, as the readers make them. sum_twice_false shows that the hypothesis is needed."
  },
  {
   "property": "C179",
   "status": "partial",
   "theorems": [
    "Dolfyn.lt83_scale",
    "Dolfyn.te01_scale",
    "Dolfyn.sf_units",
    "Dolfyn.lint_units",
    "Dolfyn.ustar_units",
    "Dolfyn.noise_units",
    "Dolfyn.shear2_units",
    "Dolfyn.dvdz_units",
    "Dolfyn.mean_units",
    "Dolfyn.tke_units",
    "Dolfyn.stress_units",
    "Dolfyn.ti_units",
    "Dolfyn.sf_fit_units",
    "Dolfyn.sf_units_false"
   ],
   "note": "Proved for all functions but one, in exact arithmetic. False of the structure-function dissipation of a profiler: it fits against r^2/3 in place of r^(2/3), so the number does not change with the unit (sf_fit_units for all inputs, sf_units_false). The integral of TE01 depends on the turbulence intensity and an angle and is the same in both units."
  },
  {
   "property": "C180",
   "status": "partial",
   "theorems": [
    "Dolfyn.attr_roundtrip",
    "Dolfyn.rotate_vars_loaded",
    "Dolfyn.attr_twice",
    "Dolfyn.attr_changed",
    "Dolfyn.attrs_kept_false"
   ],
   "note": "False of lists of one element other than rotate_vars, of empty lists and of numpy arrays (attrs_kept_false, attr_changed); attr_roundtrip says exactly which attributes come back. The loaded list of rotated variables is right for any number of names, and a second round trip changes nothing. What the netCDF library does with attributes is trusted as described in the model."
  },
  {
   "property": "C181",
   "status": "partial",
   "theorems": [
    "Dolfyn.tke_beam_plain",
    "Dolfyn.tke_beam_right",
    "Dolfyn.tke_beam_bins",
    "Dolfyn.tke_beam_cells",
    "Dolfyn.noise_own_false",
    "Dolfyn.noise_cells_false"
   ],
   "note": "False of noise levels given per cell or per bin (noise_own_false: both refused; noise_cells_false: levels of cells subtracted in the bins). tke_beam_right shows the two forms that work: one number, or one level per cell and bin. tke_beam_bins and tke_beam_cells say exactly what happens otherwise. tke_beam_plain is for demeaned data without missing samples; the others hold with detrending too. Rounding to float32 is not modelled."
  },
  {
   "property": "C182",
   "status": "partial",
   "theorems": [
    "Dolfyn.tke_steady",
    "Dolfyn.stress_steady",
    "Dolfyn.var_steady",
    "Dolfyn.mean_steady",
    "Dolfyn.stress4_steady",
    "Dolfyn.stress5_steady",
    "Dolfyn.tke_beam_steady",
    "Dolfyn.sf_steady",
    "Dolfyn.cpsd_steady",
    "Dolfyn.quasi_steady",
    "Dolfyn.coherence_steady",
    "Dolfyn.phase_steady",
    "Dolfyn.psd_line",
    "Dolfyn.acov_offset",
    "Dolfyn.ti_steady",
    "Dolfyn.tke_stress_drift",
    "Dolfyn.drift_free_false"
   ],
   "note": "Constant currents: proved for all functions named, with missing samples and fractional bins where the model has them (spectra: complete records). Linear drifts: proved for complete records and integer bin lengths; false with missing samples (drift_free_false), because the slope is then computed from different samples in numerator and denominator. ti_steady: intensity changes only through the mean speed."
  },
  {
   "property": "C183",
   "status": "partial",
   "theorems": [
    "Dolfyn.gap_values",
    "Dolfyn.gap_spread",
    "Dolfyn.gap_roundtrip",
    "Dolfyn.gap_vector",
    "Dolfyn.gap_vertical",
    "Dolfyn.gap_rdi",
    "Dolfyn.gap_beam",
    "Dolfyn.gap_succeeds",
    "Dolfyn.gap_back_false",
    "Dolfyn.gap_declination_values",
    "Dolfyn.gap_declination_other",
    "Dolfyn.gap_declination_earth",
    "Dolfyn.gap_head_values",
    "Dolfyn.gap_head_inst",
    "Dolfyn.gap_head_beam",
    "Dolfyn.gap_declination_false",
    "Dolfyn.gap_head_earth",
    "Dolfyn.gap_head_succeeds",
    "Dolfyn.gap_head_false"
   ],
   "note": "False of the round trip: a sample with one missing component comes back with all mixed components missing (gap_back_false); gap_roundtrip says exactly what is lost and that what is left is unchanged. set_declination on earth-frame data rotates to instrument coordinates and back, so it loses the measured vertical velocity of a sample whose northward velocity is missing (gap_declination_false). Missing entries in the orientation matrix are not modelled."
  },
  {
   "property": "C184",
   "status": "partial",
   "theorems": [
    "Dolfyn.corr_filter_frames",
    "Dolfyn.corr_filter_keeps",
    "Dolfyn.corr_filter_blanks",
    "Dolfyn.corr_filter_beam",
    "Dolfyn.corr_filter_rest",
    "Dolfyn.corr_filter_succeeds",
    "Dolfyn.corr_filter_ship_false"
   ],
   "note": "Proved for beam, instrument, earth and principal coordinates and well-formed matrices; refuted of the ship frame. Masking of corr, amp and the fifth beam is C38."
  },
  {
   "property": "C185",
   "status": "partial",
   "theorems": [
    "Dolfyn.detrend_lines",
    "Dolfyn.detrend_axis",
    "Dolfyn.detrend_lines_normal",
    "Dolfyn.detrend_lines_apart",
    "Dolfyn.detrend_argument",
    "Dolfyn.detrend_integers_false"
   ],
   "note": "Proved for arrays of floats in exact arithmetic; refuted of integer arrays (detrend_integers_false). What a line with missing values becomes is C20."
  },
  {
   "property": "C186",
   "status": "partial",
   "theorems": [
    "Dolfyn.nolist_partial",
    "Dolfyn.nolist_beam_never",
    "Dolfyn.nolist_to_beam_never",
    "Dolfyn.nolist_false",
    "Dolfyn.nolist_declination",
    "Dolfyn.nolist_head"
   ],
   "note": "False of every rotation out of or into beam coordinates (nolist_beam_never, nolist_to_beam_never, nolist_false); proved for all others. The changes made in place before an exception are not modelled."
  }
 ]
}