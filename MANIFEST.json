{
 "claims": [
  {
   "property": "C01",
   "status": "proved",
   "theorems": [
    "Verif.C01_vec",
    "Verif.C01_u8",
    "Verif.C01_mat"
   ],
   "note": ""
  },
  {
   "property": "C02",
   "status": "proved",
   "theorems": [
    "Verif.C02_vec",
    "Verif.C02_mat"
   ],
   "note": ""
  },
  {
   "property": "C03",
   "status": "proved",
   "theorems": [
    "Verif.C03_vec",
    "Verif.C03_u8",
    "Verif.C03_mat",
    "Verif.C03_read"
   ],
   "note": ""
  },
  {
   "property": "C04",
   "status": "proved",
   "theorems": [
    "Verif.C04_vec",
    "Verif.C04_mat"
   ],
   "note": ""
  },
  {
   "property": "C05",
   "status": "proved",
   "theorems": [
    "Verif.C05_result",
    "Verif.C05_ok_iff",
    "Verif.C05_round_trip",
    "Verif.C05_fail",
    "Verif.C05_u8"
   ],
   "note": ""
  },
  {
   "property": "C06",
   "status": "proved",
   "theorems": [
    "Verif.C06_result",
    "Verif.C06_ok_iff",
    "Verif.C06_round_trip",
    "Verif.C06_fail"
   ],
   "note": ""
  },
  {
   "property": "C07",
   "status": "proved",
   "theorems": [
    "Verif.C07_vec",
    "Verif.C07_mat",
    "Verif.C07_layout",
    "Verif.C07_access",
    "Verif.C07_access_vec"
   ],
   "note": ""
  },
  {
   "property": "C08",
   "status": "proved",
   "theorems": [
    "Verif.C08_add",
    "Verif.C08_sub",
    "Verif.C08_vec",
    "Verif.C08_new",
    "Verif.C08_agree",
    "Verif.C08_agree_new",
    "Verif.C08_size"
   ],
   "note": ""
  },
  {
   "property": "C09",
   "status": "proved",
   "theorems": [
    "Verif.C09_add",
    "Verif.C09_sub",
    "Verif.C09_mat",
    "Verif.C09_new",
    "Verif.C09_agree",
    "Verif.C09_agree_new",
    "Verif.C09_size"
   ],
   "note": ""
  },
  {
   "property": "C10",
   "status": "proved",
   "theorems": [
    "Verif.C10_add_scalar_vec",
    "Verif.C10_sub_scalar_vec",
    "Verif.C10_mul_by_scalar_vec",
    "Verif.C10_add_scalar_mat",
    "Verif.C10_sub_scalar_mat",
    "Verif.C10_mul_by_scalar_mat",
    "Verif.C10_power",
    "Verif.C10_fresh_vec",
    "Verif.C10_fresh_mat"
   ],
   "note": "success half: C08_vec, C08_new, C09_mat, C09_new"
  },
  {
   "property": "C11",
   "status": "proved",
   "theorems": [
    "Verif.C11_vec",
    "Verif.C11_mat",
    "Verif.C11_new",
    "Verif.C11_new_mat"
   ],
   "note": ""
  },
  {
   "property": "C12",
   "status": "proved",
   "theorems": [
    "Verif.C12_fail_state",
    "Verif.C12_mul",
    "Verif.C12_fail",
    "Verif.C12_size",
    "Verif.C12_new",
    "Verif.C12_new_size",
    "Verif.C12_exact"
   ],
   "note": ""
  },
  {
   "property": "C13",
   "status": "proved",
   "theorems": [
    "Verif.C13_transpose",
    "Verif.C13_reach",
    "Verif.C13_uninit"
   ],
   "note": ""
  },
  {
   "property": "C14",
   "status": "proved",
   "theorems": [
    "Verif.C14_set_row",
    "Verif.C14_set_col",
    "Verif.C14_get_row",
    "Verif.C14_get_col",
    "Verif.C14_round_trip",
    "Verif.C14_round_trip_col"
   ],
   "note": ""
  },
  {
   "property": "C15",
   "status": "proved",
   "theorems": [
    "Verif.C15_add_row",
    "Verif.C15_add_col"
   ],
   "note": ""
  },
  {
   "property": "C16",
   "status": "proved",
   "theorems": [
    "Verif.C16_del_row",
    "Verif.C16_inverse",
    "Verif.C16_fail"
   ],
   "note": ""
  },
  {
   "property": "C17",
   "status": "proved",
   "theorems": [
    "Verif.C17_row_contents",
    "Verif.C17_col_contents",
    "Verif.C17_add_row",
    "Verif.C17_add_col",
    "Verif.C17_full"
   ],
   "note": ""
  },
  {
   "property": "C18",
   "status": "proved",
   "theorems": [
    "Verif.C18_diag",
    "Verif.C18_default"
   ],
   "note": ""
  },
  {
   "property": "C19",
   "status": "proved",
   "theorems": [
    "Verif.C19_vec",
    "Verif.C19_mat",
    "Verif.C19_symmetric",
    "Verif.C19_uninit"
   ],
   "note": ""
  },
  {
   "property": "C20",
   "status": "proved",
   "theorems": [
    "Verif.C20_upper",
    "Verif.C20_upper_tall",
    "Verif.C20_lower",
    "Verif.C20_square",
    "Verif.C20_lower_wide"
   ],
   "note": ""
  },
  {
   "property": "C21",
   "status": "proved",
   "theorems": [
    "Verif.C21_expansion",
    "Verif.C21_det",
    "Verif.C21_fail",
    "Verif.C21_permutations"
   ],
   "note": ""
  },
  {
   "property": "C22",
   "status": "proved",
   "theorems": [
    "Verif.C22_lup",
    "Verif.C22_not_square"
   ],
   "note": ""
  },
  {
   "property": "C23",
   "status": "proved",
   "theorems": [
    "Verif.C23_outcome",
    "Verif.C23_solve",
    "Verif.C23_singular"
   ],
   "note": ""
  },
  {
   "property": "C24",
   "status": "proved",
   "theorems": [
    "Verif.C24_invert",
    "Verif.C24_fail"
   ],
   "note": ""
  },
  {
   "property": "C25",
   "status": "proved",
   "theorems": [
    "Verif.C25_det",
    "Verif.C25_det_small",
    "Verif.C25_det_abs",
    "Verif.C25_singular_on_regular",
    "Verif.C25_wrong_sign"
   ],
   "note": ""
  },
  {
   "property": "C26",
   "status": "proved",
   "theorems": [
    "Verif.C26_lr",
    "Verif.C26_lr_zero",
    "Verif.C26_not_square",
    "Verif.C26_wrong_from_3",
    "Verif.C26_all_sizes",
    "Verif.C26_returns",
    "Verif.C26_upper",
    "Verif.C26_three",
    "Verif.C26_where_right"
   ],
   "note": ""
  },
  {
   "property": "C27",
   "status": "proved",
   "theorems": [
    "Verif.C27_all_sizes",
    "Verif.C27_returns",
    "Verif.C27_one",
    "Verif.C27_zero",
    "Verif.C27_two",
    "Verif.C27_wrong_from_3",
    "Verif.C27_rejects",
    "Verif.C27_not_square"
   ],
   "note": ""
  },
  {
   "property": "C28",
   "status": "proved",
   "theorems": [
    "Verif.C28_qr",
    "Verif.C28_total",
    "Verif.C28_deficient_wrong",
    "Verif.C28_not_square"
   ],
   "note": ""
  },
  {
   "property": "C29",
   "status": "proved",
   "theorems": [
    "Verif.C29_chol",
    "Verif.C29_success",
    "Verif.C29_refused",
    "Verif.C29_not_lower"
   ],
   "note": ""
  },
  {
   "property": "C30",
   "status": "proved",
   "theorems": [
    "Verif.C30_no_iteration",
    "Verif.C30_not_converged",
    "Verif.C30_not_square",
    "Verif.C30_shifted_one",
    "Verif.C30_eigen",
    "Verif.C30_trace",
    "Verif.C30_example",
    "Verif.C30_singular_wrong",
    "Verif.C30_shifted_identity"
   ],
   "note": ""
  },
  {
   "property": "C31",
   "status": "proved",
   "theorems": [
    "Verif.C31_norm",
    "Verif.C31_normalize",
    "Verif.C31_normalize_small"
   ],
   "note": ""
  },
  {
   "property": "C32",
   "status": "proved",
   "theorems": [
    "Verif.C32_alpha",
    "Verif.C32_lerp",
    "Verif.C32_lerp_ends",
    "Verif.C32_slerp",
    "Verif.C32_slerp_ends",
    "Verif.C32_slerp_parallel",
    "Verif.C32_speed"
   ],
   "note": ""
  },
  {
   "property": "C33",
   "status": "proved",
   "theorems": [
    "Verif.C33_dot",
    "Verif.C33_outer",
    "Verif.C33_trace",
    "Verif.C33_frobenius",
    "Verif.C33_to_matrix",
    "Verif.C33_exact"
   ],
   "note": ""
  },
  {
   "property": "C34",
   "status": "proved",
   "theorems": [
    "Verif.C34_agree",
    "Verif.C34_refused",
    "Verif.C34_hamilton",
    "Verif.C34_assoc",
    "Verif.C34_norm"
   ],
   "note": ""
  },
  {
   "property": "C35",
   "status": "proved",
   "theorems": [
    "Verif.C35_negates",
    "Verif.C35_conjugate",
    "Verif.C35_involution",
    "Verif.C35_product",
    "Verif.C35_invert",
    "Verif.C35_inverse",
    "Verif.C35_invert_small"
   ],
   "note": ""
  },
  {
   "property": "C36",
   "status": "proved",
   "theorems": [
    "Verif.C36_dcm",
    "Verif.C36_product",
    "Verif.C36_opposite",
    "Verif.C36_faithful",
    "Verif.C36_not_unit"
   ],
   "note": ""
  },
  {
   "property": "C37",
   "status": "proved",
   "theorems": [
    "Verif.C37_agree",
    "Verif.C37_rotate",
    "Verif.C37_norm",
    "Verif.C37_compose"
   ],
   "note": ""
  },
  {
   "property": "C38",
   "status": "proved",
   "theorems": [
    "Verif.C38_chiaverini",
    "Verif.C38_half_turn",
    "Verif.C38_wrong"
   ],
   "note": ""
  },
  {
   "property": "C39",
   "status": "proved",
   "theorems": [
    "Verif.C39_hughes",
    "Verif.C39_small_angle",
    "Verif.C39_half_turn"
   ],
   "note": ""
  },
  {
   "property": "C40",
   "status": "proved",
   "theorems": [
    "Verif.C40_sarabandi",
    "Verif.C40_wrong"
   ],
   "note": ""
  },
  {
   "property": "C41",
   "status": "proved",
   "theorems": [
    "Verif.C41_real",
    "Verif.C41_exp_new",
    "Verif.C41_exp",
    "Verif.C41_pure",
    "Verif.C41_differ"
   ],
   "note": ""
  },
  {
   "property": "C42",
   "status": "proved",
   "theorems": [
    "Verif.C42_acc_iff",
    "Verif.C42_acc_round_trip",
    "Verif.C42_acc_init",
    "Verif.C42_acc_half_applied",
    "Verif.C42_gyr_iff",
    "Verif.C42_gyr_round_trip",
    "Verif.C42_gyr_init",
    "Verif.C42_gyr_half_applied",
    "Verif.C42_mag_iff",
    "Verif.C42_mag_round_trip",
    "Verif.C42_mag_init",
    "Verif.C42_mag_half_applied"
   ],
   "note": ""
  },
  {
   "property": "C43",
   "status": "proved",
   "theorems": [
    "Verif.C43_acc_formula",
    "Verif.C43_acc_iff",
    "Verif.C43_acc_exact",
    "Verif.C43_acc_default",
    "Verif.C43_gyr_formula",
    "Verif.C43_gyr_iff",
    "Verif.C43_gyr_exact",
    "Verif.C43_gyr_default",
    "Verif.C43_mag_formula",
    "Verif.C43_mag_iff",
    "Verif.C43_mag_exact",
    "Verif.C43_mag_default"
   ],
   "note": ""
  },
  {
   "property": "C44",
   "status": "proved",
   "theorems": [
    "Verif.C44_acc_unused",
    "Verif.C44_acc_new",
    "Verif.C44_acc_init",
    "Verif.C44_acc_once",
    "Verif.C44_acc_retry",
    "Verif.C44_gyr_unused",
    "Verif.C44_gyr_new",
    "Verif.C44_gyr_init",
    "Verif.C44_gyr_once",
    "Verif.C44_gyr_retry",
    "Verif.C44_mag_unused",
    "Verif.C44_mag_new",
    "Verif.C44_mag_init",
    "Verif.C44_mag_once",
    "Verif.C44_mag_retry"
   ],
   "note": ""
  },
  {
   "property": "C45",
   "status": "proved",
   "theorems": [
    "Verif.C45_acc_rejected",
    "Verif.C45_acc_kept",
    "Verif.C45_acc_overflow",
    "Verif.C45_acc_config",
    "Verif.C45_gyr_rejected",
    "Verif.C45_gyr_kept",
    "Verif.C45_gyr_overflow",
    "Verif.C45_gyr_config",
    "Verif.C45_mag_rejected",
    "Verif.C45_mag_kept",
    "Verif.C45_mag_overflow",
    "Verif.C45_mag_config",
    "Verif.C45_gyr_difference",
    "Verif.C45_acc_difference",
    "Verif.C45_mag_difference"
   ],
   "note": ""
  },
  {
   "property": "C46",
   "status": "proved",
   "theorems": [
    "Verif.C46_iff",
    "Verif.C46_attitude",
    "Verif.C46_permanent",
    "Verif.C46_refused",
    "Verif.C46_retry",
    "Verif.C46_once"
   ],
   "note": ""
  },
  {
   "property": "C47",
   "status": "proved",
   "theorems": [
    "Verif.C47_still",
    "Verif.C47_rejected"
   ],
   "note": ""
  },
  {
   "property": "C48",
   "status": "proved",
   "theorems": [
    "Verif.C48_step",
    "Verif.C48_unit",
    "Verif.C48_any"
   ],
   "note": ""
  },
  {
   "property": "C49",
   "status": "proved",
   "theorems": [
    "Verif.C49_closed",
    "Verif.C49_ode",
    "Verif.C49_steps",
    "Verif.C49_halves"
   ],
   "note": ""
  },
  {
   "property": "C50",
   "status": "proved",
   "theorems": [
    "Verif.C50_unimplemented",
    "Verif.C50_euler",
    "Verif.C50_taylor",
    "Verif.C50_same_iff"
   ],
   "note": ""
  },
  {
   "property": "C51",
   "status": "proved",
   "theorems": [
    "Verif.C51_factorial",
    "Verif.C51_overflow",
    "Verif.C51_wraps",
    "Verif.C51_vanishes",
    "Verif.C51_panics",
    "Verif.C51_taylor"
   ],
   "note": ""
  },
  {
   "property": "C52",
   "status": "proved",
   "theorems": [
    "Verif.C52_iff",
    "Verif.C52_attitude",
    "Verif.C52_permanent",
    "Verif.C52_once"
   ],
   "note": ""
  },
  {
   "property": "C53",
   "status": "proved",
   "theorems": [
    "Verif.C53_missing",
    "Verif.C53_incomplete",
    "Verif.C53_am"
   ],
   "note": ""
  },
  {
   "property": "C54",
   "status": "proved",
   "theorems": [
    "Verif.C54_am",
    "Verif.C54_marg",
    "Verif.C54_unit",
    "Verif.C54_zero"
   ],
   "note": ""
  },
  {
   "property": "C55",
   "status": "proved",
   "theorems": [
    "Verif.C55_gain",
    "Verif.C55_stuck"
   ],
   "note": ""
  },
  {
   "property": "C56",
   "status": "proved",
   "theorems": [
    "Verif.C56_off"
   ],
   "note": ""
  },
  {
   "property": "C57",
   "status": "proved",
   "theorems": [
    "Verif.C57_init",
    "Verif.C57_started",
    "Verif.C57_before",
    "Verif.C57_never",
    "Verif.C57_permanent"
   ],
   "note": ""
  },
  {
   "property": "C58",
   "status": "proved",
   "theorems": [
    "Verif.Dsp.Complex.C58_new",
    "Verif.Dsp.Complex.C58_set",
    "Verif.Dsp.Complex.C58_swap",
    "Verif.Dsp.Complex.C58_ring",
    "Verif.Dsp.Complex.C58_neg",
    "Verif.Dsp.Complex.C58_div",
    "Verif.Dsp.Complex.C58_module",
    "Verif.Dsp.Complex.C58_expo",
    "Verif.Dsp.Complex.C58_polar",
    "Verif.Dsp.Complex.C58_polar_refuses",
    "Verif.C58_get"
   ],
   "note": ""
  },
  {
   "property": "C59",
   "status": "proved",
   "theorems": [
    "Verif.Dsp.C59_bitrev",
    "Verif.Dsp.C59_involution",
    "Verif.Dsp.C59_injective"
   ],
   "note": ""
  },
  {
   "property": "C60",
   "status": "proved",
   "theorems": [
    "Verif.Utils.C60_clip",
    "Verif.Utils.C60_clip_nan",
    "Verif.Utils.C60_clip_mono",
    "Verif.Utils.C60_clip_reversed",
    "Verif.Utils.C60_in_range",
    "Verif.Utils.C60_clip_in_range",
    "Verif.Utils.C60_min_max",
    "Verif.Utils.C60_min_max_nan",
    "Verif.Utils.C60_sign",
    "Verif.Utils.C60_allclose",
    "Verif.Utils.C60_allclose_exact",
    "Verif.Utils.C60_int",
    "Verif.Utils.C60_sign_int"
   ],
   "note": ""
  },
  {
   "property": "C61",
   "status": "proved",
   "theorems": [
    "Verif.Ahrs.C61_source",
    "Verif.Ahrs.C61_number",
    "Verif.Ahrs.C61_unit",
    "Verif.Ahrs.C61_values"
   ],
   "note": ""
  },
  {
   "property": "C62",
   "status": "proved",
   "theorems": [
    "Verif.C62_orthogonal",
    "Verif.C62_so_n",
    "Verif.C62_so_n_any",
    "Verif.C62_not_square",
    "Verif.C62_quarter_turn",
    "Verif.C62_rejects_rotation"
   ],
   "note": ""
  },
  {
   "property": "C63",
   "status": "proved",
   "theorems": [
    "Verif.C63_duplicate_vec",
    "Verif.C63_duplicate_mat",
    "Verif.C63_copy_vec",
    "Verif.C63_copy_mat"
   ],
   "note": ""
  },
  {
   "property": "C64",
   "status": "proved",
   "theorems": [
    "Verif.C64_euler",
    "Verif.C64_gimbal",
    "Verif.C64_nan"
   ],
   "note": ""
  },
  {
   "property": "C65",
   "status": "proved",
   "theorems": [
    "Verif.C65_small",
    "Verif.C65_asymmetric",
    "Verif.C65_rejects",
    "Verif.C65_accepts_semidefinite",
    "Verif.C65_small_corner",
    "Verif.C65_two",
    "Verif.C65_one"
   ],
   "note": ""
  },
  {
   "property": "C66",
   "status": "proved",
   "theorems": [
    "Verif.C66_acc_no_panic",
    "Verif.C66_acc_finite",
    "Verif.C66_gyr_no_panic",
    "Verif.C66_gyr_finite",
    "Verif.C66_mag_no_panic",
    "Verif.C66_mag_finite"
   ],
   "note": ""
  },
  {
   "property": "C67",
   "status": "proved",
   "theorems": [
    "Verif.C67_gyr_target",
    "Verif.C67_acc_target",
    "Verif.C67_mag_false",
    "Verif.C67_mag_target"
   ],
   "note": ""
  },
  {
   "property": "C68",
   "status": "proved",
   "theorems": [
    "Verif.C68_second",
    "Verif.C68_stuck",
    "Verif.C68_reverse"
   ],
   "note": ""
  },
  {
   "property": "C69",
   "status": "proved",
   "theorems": [
    "Verif.C69_align",
    "Verif.C69_refused",
    "Verif.C69_unique"
   ],
   "note": ""
  },
  {
   "property": "C70",
   "status": "proved",
   "theorems": [
    "Verif.C70_step",
    "Verif.C70_gyro",
    "Verif.C70_fixed",
    "Verif.C70_heading"
   ],
   "note": ""
  },
  {
   "property": "C71",
   "status": "proved",
   "theorems": [
    "Verif.C71_formula",
    "Verif.C71_iff"
   ],
   "note": ""
  },
  {
   "property": "C72",
   "status": "proved",
   "theorems": [
    "Verif.Quat.C72_get",
    "Verif.Quat.C72_set",
    "Verif.Quat.C72_refuse",
    "Verif.Quat.C72_fill",
    "Verif.Quat.C72_vector_part",
    "Verif.Quat.C72_size",
    "Verif.Quat.C72_uninit"
   ],
   "note": ""
  },
  {
   "property": "C73",
   "status": "proved",
   "theorems": [
    "Verif.Quat.C73_predicates"
   ],
   "note": ""
  },
  {
   "property": "C74",
   "status": "proved",
   "theorems": [
    "Verif.C74_identity_any",
    "Verif.C74_log",
    "Verif.C74_fail",
    "Verif.C74_rodrigues",
    "Verif.C74_identity"
   ],
   "note": ""
  },
  {
   "property": "C75",
   "status": "proved",
   "theorems": [
    "Verif.C75_adjugate",
    "Verif.C75_adjugate_orthogonal",
    "Verif.C75_adjugate_wrong",
    "Verif.C75_dlyap",
    "Verif.C75_dlyap_wrong"
   ],
   "note": ""
  },
  {
   "property": "C76",
   "status": "proved",
   "theorems": [
    "Verif.C76_dot",
    "Verif.C76_mul"
   ],
   "note": ""
  },
  {
   "property": "C77",
   "status": "proved",
   "theorems": [
    "Verif.C77_norm",
    "Verif.C77_overflow",
    "Verif.C77_normalize"
   ],
   "note": ""
  },
  {
   "property": "C78",
   "status": "proved",
   "theorems": [
    "Verif.C78_versor",
    "Verif.C78_normalize"
   ],
   "note": ""
  },
  {
   "property": "C79",
   "status": "proved",
   "theorems": [
    "Verif.C79_mul"
   ],
   "note": ""
  },
  {
   "property": "C80",
   "status": "proved",
   "theorems": [
    "Verif.C80_update",
    "Verif.C80_history",
    "Verif.C80_lost"
   ],
   "note": ""
  },
  {
   "property": "C81",
   "status": "proved",
   "theorems": [
    "Verif.C81_gyr",
    "Verif.C81_acc",
    "Verif.C81_mag"
   ],
   "note": ""
  },
  {
   "property": "C82",
   "status": "proved",
   "theorems": [
    "Verif.C82_step"
   ],
   "note": ""
  },
  {
   "property": "C83",
   "status": "proved",
   "theorems": [
    "Verif.C83_track"
   ],
   "note": ""
  },
  {
   "property": "C84",
   "status": "proved",
   "theorems": [
    "Verif.C84_shifted",
    "Verif.C84_two"
   ],
   "note": ""
  },
  {
   "property": "C85",
   "status": "proved",
   "theorems": [
    "Verif.C85_orthogonal",
    "Verif.C85_wrong"
   ],
   "note": ""
  },
  {
   "property": "C86",
   "status": "proved",
   "theorems": [
    "Verif.C86_vec_reads",
    "Verif.C86_vec_writes",
    "Verif.C86_vec_operand",
    "Verif.C86_vec_loops",
    "Verif.C86_quat",
    "Verif.C86_mat_reads",
    "Verif.C86_mat_factors",
    "Verif.C86_mat_writes",
    "Verif.C86_mat_operand",
    "Verif.C86_mat_loops",
    "Verif.C86_new",
    "Verif.C86_quat_rest",
    "Verif.C86_quat_operand",
    "Verif.C86_quat_copies",
    "Verif.C86_mat_stale",
    "Verif.C86_mat_views",
    "Verif.C86_mat_mul",
    "Verif.C86_mat_insert",
    "Verif.C86_mat_fresh"
   ],
   "note": ""
  },
  {
   "property": "C87",
   "status": "proved",
   "theorems": [
    "Verif.C87_vec",
    "Verif.C87_vec_three",
    "Verif.C87_quat",
    "Verif.C87_quat_operand",
    "Verif.C87_mat",
    "Verif.C87_mat_three",
    "Verif.C87_mul",
    "Verif.C87_square",
    "Verif.C87_views"
   ],
   "note": ""
  },
  {
   "property": "C88",
   "status": "proved",
   "theorems": [
    "Verif.C88_dcm",
    "Verif.C88_rotate"
   ],
   "note": ""
  },
  {
   "property": "C89",
   "status": "proved",
   "theorems": [
    "Verif.C89_align"
   ],
   "note": ""
  },
  {
   "property": "C90",
   "status": "proved",
   "theorems": [
    "Verif.C90_update",
    "Verif.C90_lost",
    "Verif.C90_overflow"
   ],
   "note": ""
  },
  {
   "property": "C91",
   "status": "proved",
   "theorems": [
    "Verif.TempDsp.Complex.C91_new",
    "Verif.TempDsp.Complex.C91_access",
    "Verif.TempDsp.Complex.C91_polar",
    "Verif.TempDsp.Complex.C91_copy",
    "Verif.TempDsp.Complex.C91_add",
    "Verif.TempDsp.Complex.C91_sub",
    "Verif.TempDsp.Complex.C91_in_place",
    "Verif.TempDsp.Complex.C91_mul",
    "Verif.TempDsp.Complex.C91_atomic",
    "Verif.TempDsp.Complex.C91_swap",
    "Verif.TempDsp.Complex.C91_expo_unchecked",
    "Verif.TempDsp.Complex.C91_ring",
    "Verif.TempDsp.Complex.C91_neg",
    "Verif.TempDsp.Complex.C91_div",
    "Verif.TempDsp.Complex.C91_module",
    "Verif.TempDsp.Complex.C91_exp"
   ],
   "note": ""
  },
  {
   "property": "C92",
   "status": "proved",
   "theorems": [
    "Verif.TempDsp.C92_finite",
    "Verif.TempDsp.C92_exact",
    "Verif.TempDsp.C92_dft",
    "Verif.TempDsp.C92_twice"
   ],
   "note": ""
  },
  {
   "property": "C93",
   "status": "proved",
   "theorems": [
    "Verif.TempDsp.C93_dft",
    "Verif.TempDsp.C93_main"
   ],
   "note": ""
  },
  {
   "property": "C94",
   "status": "proved",
   "theorems": [
    "Verif.C94_lup",
    "Verif.C94_subst",
    "Verif.C94_solve",
    "Verif.C94_invert",
    "Verif.C94_unstable"
   ],
   "note": ""
  },
  {
   "property": "C95",
   "status": "proved",
   "theorems": [
    "Verif.AhrsTest.C95_sensors",
    "Verif.AhrsTest.C95_methods",
    "Verif.AhrsTest.C95_frames"
   ],
   "note": ""
  },
  {
   "property": "C96",
   "status": "proved",
   "theorems": [
    "Verif.AhrsTest.C96_test",
    "Verif.AhrsTest.C96_lag"
   ],
   "note": ""
  },
  {
   "property": "C97",
   "status": "proved",
   "theorems": [
    "Verif.C97_eigen",
    "Verif.C97_converges",
    "Verif.C97_inexact"
   ],
   "note": ""
  },
  {
   "property": "C98",
   "status": "proved",
   "theorems": [
    "Verif.Generator.C98_fields",
    "Verif.Generator.C98_rate",
    "Verif.Generator.C98_frame",
    "Verif.Generator.C98_file"
   ],
   "note": ""
  },
  {
   "property": "C99",
   "status": "proved",
   "theorems": [
    "Verif.C99_naive",
    "Verif.C99_det"
   ],
   "note": ""
  },
  {
   "property": "C100",
   "status": "proved",
   "theorems": [
    "Verif.C100_lower",
    "Verif.C100_stable",
    "Verif.C100_not_triangular",
    "Verif.C100_upper"
   ],
   "note": ""
  },
  {
   "property": "C101",
   "status": "proved",
   "theorems": [
    "Verif.C101_qr",
    "Verif.C101_angle",
    "Verif.C101_loss",
    "Verif.C101_dependent",
    "Verif.C101_overflow"
   ],
   "note": ""
  },
  {
   "property": "C102",
   "status": "proved",
   "theorems": [
    "Verif.Dsp.C102_dftmerge"
   ],
   "note": ""
  },
  {
   "property": "C103",
   "status": "proved",
   "theorems": [
    "Verif.C103_half_turn",
    "Verif.C103_square_root",
    "Verif.C103_hughes",
    "Verif.C103_small_angle",
    "Verif.C103_chiaverini",
    "Verif.C103_sarabandi"
   ],
   "note": ""
  },
  {
   "property": "C104",
   "status": "proved",
   "theorems": [
    "Verif.C104_euler",
    "Verif.C104_nan",
    "Verif.C104_quarter_turn"
   ],
   "note": ""
  },
  {
   "property": "C105",
   "status": "proved",
   "theorems": [
    "Verif.C105_lerp",
    "Verif.C105_slerp",
    "Verif.C105_slerp_same"
   ],
   "note": ""
  },
  {
   "property": "C106",
   "status": "proved",
   "theorems": [
    "Verif.C106_step",
    "Verif.C106_track",
    "Verif.C106_lag"
   ],
   "note": ""
  },
  {
   "property": "C107",
   "status": "proved",
   "theorems": [
    "Verif.C107_first32",
    "Verif.C107_block32",
    "Verif.C107_first",
    "Verif.C107_one",
    "Verif.C107_two",
    "Verif.C107_three",
    "Verif.C107_block",
    "Verif.C107_upper",
    "Verif.C107_covariance"
   ],
   "note": ""
  },
  {
   "property": "C108",
   "status": "proved",
   "theorems": [
    "Verif.C108_plane",
    "Verif.C108_yaw",
    "Verif.C108_pitch",
    "Verif.C108_roll",
    "Verif.C108_log_yaw"
   ],
   "note": ""
  },
  {
   "property": "C109",
   "status": "proved",
   "theorems": [
    "Verif.C109_vec",
    "Verif.C109_mat",
    "Verif.C109_uninit",
    "Verif.C109_attitude",
    "Verif.C109_read_vec",
    "Verif.C109_read_mat",
    "Verif.TempDsp.C109_main",
    "Verif.AhrsTest.C109_report"
   ],
   "note": ""
  },
  {
   "property": "C110",
   "status": "proved",
   "theorems": [
    "Verif.C110_tilt",
    "Verif.C110_level",
    "Verif.C110_settle"
   ],
   "note": ""
  },
  {
   "property": "C111",
   "status": "proved",
   "theorems": [
    "Verif.C111_step"
   ],
   "note": ""
  },
  {
   "property": "C112",
   "status": "proved",
   "theorems": [
    "Verif.C112_rest"
   ],
   "note": ""
  },
  {
   "property": "C113",
   "status": "proved",
   "theorems": [
    "Verif.C113_shake",
    "Verif.C113_quarter",
    "Verif.C113_back",
    "Verif.C113_series",
    "Verif.C113_reverse"
   ],
   "note": ""
  },
  {
   "property": "C114",
   "status": "proved",
   "theorems": [
    "Verif.C114_step",
    "Verif.C114_track"
   ],
   "note": ""
  },
  {
   "property": "C115",
   "status": "proved",
   "theorems": [
    "Verif.C115_closed",
    "Verif.C115_limit",
    "Verif.C115_taylor",
    "Verif.C115_left",
    "Verif.C115_euler",
    "Verif.C115_closedF",
    "Verif.C115_taylorF"
   ],
   "note": ""
  },
  {
   "property": "C116",
   "status": "proved",
   "theorems": [
    "Verif.C116_step",
    "Verif.C116_turn",
    "Verif.C116_lag",
    "Verif.C116_lag_ge",
    "Verif.C116_lag_half",
    "Verif.C116_lag_lt",
    "Verif.C116_worse",
    "Verif.C116_motion",
    "Verif.C116_free"
   ],
   "note": ""
  },
  {
   "property": "C117",
   "status": "proved",
   "theorems": [
    "Verif.C117_qr",
    "Verif.C117_eigen"
   ],
   "note": ""
  },
  {
   "property": "C118",
   "status": "proved",
   "theorems": [
    "Verif.C118_conjugate",
    "Verif.C118_invert",
    "Verif.C118_inverse",
    "Verif.C118_invert_small",
    "Verif.C118_invert_huge",
    "Verif.C118_exp_new",
    "Verif.C118_exp",
    "Verif.C118_pure",
    "Verif.C118_exp_real",
    "Verif.C118_whole"
   ],
   "note": ""
  },
  {
   "property": "C119",
   "status": "proved",
   "theorems": [
    "Verif.C119_step",
    "Verif.C119_track",
    "Verif.C119_succeeds"
   ],
   "note": ""
  },
  {
   "property": "C120",
   "status": "proved",
   "theorems": [
    "Verif.C120_step",
    "Verif.C120_track",
    "Verif.C120_truth"
   ],
   "note": ""
  },
  {
   "property": "C121",
   "status": "proved",
   "theorems": [
    "Verif.Dsp.Complex.C121_ring",
    "Verif.Dsp.Complex.C121_neg",
    "Verif.Dsp.Complex.C121_div",
    "Verif.Dsp.Complex.C121_div_zero",
    "Verif.Dsp.Complex.C121_module",
    "Verif.Dsp.Complex.C121_module_inf",
    "Verif.Dsp.Complex.C121_polar",
    "Verif.Dsp.Complex.C121_expo",
    "Verif.TempDsp.Complex.C121_temp_ring",
    "Verif.TempDsp.Complex.C121_temp_neg",
    "Verif.TempDsp.Complex.C121_temp_div",
    "Verif.TempDsp.Complex.C121_temp_div_zero",
    "Verif.TempDsp.Complex.C121_temp_module",
    "Verif.TempDsp.Complex.C121_temp_module_inf",
    "Verif.TempDsp.Complex.C121_temp_polar",
    "Verif.TempDsp.Complex.C121_temp_expo",
    "Verif.C121_div_nan"
   ],
   "note": ""
  },
  {
   "property": "C122",
   "status": "proved",
   "theorems": [
    "Verif.C122_gram",
    "Verif.C122_det",
    "Verif.C122_rotation",
    "Verif.C122_accept",
    "Verif.C122_adjugate",
    "Verif.C122_dcm",
    "Verif.C122_refused"
   ],
   "note": ""
  },
  {
   "property": "C123",
   "status": "proved",
   "theorems": [
    "Verif.C123_log",
    "Verif.C123_rodrigues",
    "Verif.C123_quaternion",
    "Verif.C123_small",
    "Verif.C123_above",
    "Verif.C123_quaternion_above"
   ],
   "note": ""
  },
  {
   "property": "C124",
   "status": "proved",
   "theorems": [
    "Verif.C124_angles",
    "Verif.AR.C124_closed",
    "Verif.AR.C124_taylor"
   ],
   "note": ""
  },
  {
   "property": "C125",
   "status": "proved",
   "theorems": [
    "Verif.Aqua.C125_attitude",
    "Verif.Aqua.C125_angles",
    "Verif.Aqua.C125_noisy"
   ],
   "note": ""
  },
  {
   "property": "C126",
   "status": "proved",
   "theorems": [
    "Verif.Aqua.C126_aligned",
    "Verif.Aqua.C126_angles"
   ],
   "note": ""
  },
  {
   "property": "C127",
   "status": "proved",
   "theorems": [
    "Verif.Aqua.C127_same",
    "Verif.Aqua.C127_off",
    "Verif.Aqua.C127_calm",
    "Verif.Aqua.C127_wild",
    "Verif.Aqua.C127_twin",
    "Verif.Aqua.C127_stuck"
   ],
   "note": ""
  },
  {
   "property": "C128",
   "status": "proved",
   "theorems": [
    "Verif.C128_mat",
    "Verif.C128_vec",
    "Verif.C128_large",
    "Verif.C128_symmetric",
    "Verif.C128_triangular",
    "Verif.C128_quaternion",
    "Verif.C128_slack"
   ],
   "note": ""
  },
  {
   "property": "C129",
   "status": "proved",
   "theorems": [
    "Verif.C129_det",
    "Verif.C129_two",
    "Verif.C129_chol",
    "Verif.C129_small",
    "Verif.C129_block"
   ],
   "note": ""
  },
  {
   "property": "C130",
   "status": "proved",
   "theorems": [
    "Verif.C130_lr",
    "Verif.C130_small",
    "Verif.C130_upper",
    "Verif.C130_crout",
    "Verif.C130_wrong"
   ],
   "note": ""
  },
  {
   "property": "C131",
   "status": "proved",
   "theorems": [
    "Verif.Ahrs.C131_values",
    "Verif.Ahrs.C131_unit"
   ],
   "note": ""
  },
  {
   "property": "C132",
   "status": "proved",
   "theorems": [
    "Verif.AhrsTest.C132_sensors",
    "Verif.AhrsTest.C132_methods",
    "Verif.AhrsTest.C132_test",
    "Verif.AhrsTest.C132_cancel"
   ],
   "note": ""
  },
  {
   "property": "C133",
   "status": "proved",
   "theorems": [
    "Verif.AhrsTest.C133_test",
    "Verif.AhrsTest.C133_ar"
   ],
   "note": ""
  },
  {
   "property": "C134",
   "status": "proved",
   "theorems": [
    "Verif.C134_det",
    "Verif.C134_heading",
    "Verif.C134_angle"
   ],
   "note": ""
  },
  {
   "property": "C135",
   "status": "proved",
   "theorems": [
    "Verif.C135_rotation",
    "Verif.C135_roll",
    "Verif.C135_pitch"
   ],
   "note": ""
  },
  {
   "property": "C136",
   "status": "proved",
   "theorems": [
    "Verif.C136_upper",
    "Verif.C136_invert",
    "Verif.C136_chol",
    "Verif.C136_test",
    "Verif.C136_underflow",
    "Verif.C136_upper_invert"
   ],
   "note": ""
  },
  {
   "property": "C137",
   "status": "proved",
   "theorems": [
    "Verif.AR.C137_closed",
    "Verif.AR.C137_euler",
    "Verif.AR.C137_first",
    "Verif.AR.C137_drift"
   ],
   "note": ""
  },
  {
   "property": "C138",
   "status": "proved",
   "theorems": [
    "Verif.C138_trace",
    "Verif.C138_frobenius",
    "Verif.C138_overflow",
    "Verif.C138_outer"
   ],
   "note": ""
  },
  {
   "property": "C139",
   "status": "proved",
   "theorems": [
    "Verif.C139_comm",
    "Verif.C139_zero",
    "Verif.C139_exact",
    "Verif.C139_undo",
    "Verif.C139_exact_mat",
    "Verif.C139_double",
    "Verif.C139_identity",
    "Verif.C139_quaternion"
   ],
   "note": ""
  },
  {
   "property": "C140",
   "status": "proved",
   "theorems": [
    "Verif.C140_gyr",
    "Verif.C140_gyr_still",
    "Verif.C140_acc",
    "Verif.C140_acc_still",
    "Verif.C140_mag",
    "Verif.C140_mag_still"
   ],
   "note": ""
  },
  {
   "property": "C141",
   "status": "proved",
   "theorems": [
    "Verif.AR.C141_sample",
    "Verif.AR.C141_rest",
    "Verif.AR.C141_pause"
   ],
   "note": ""
  }
 ]
}