ok   capil.c test_polycap_capil_segment: 7 values
ok   capil.c test_polycap_refl_polar: 36 values
ok   capil.c test_polycap_capil_reflect: 8 values
ok   leaks.c test_polycap_capil_reflect_leak: 6 values
ok   capil.c test_polycap_capil_trace: 22 values
ok   leaks.c test_polycap_capil_trace_leak: 22 values
ok   photon.c test_polycap_photon_within_pc_boundary: 4 values
ok   photon.c test_polycap_photon_launch: 11 values
ok   leaks.c test_polycap_capil_trace_wall_leak: 16 values
ok   leaks.c test_polycap_photon_leak: 119 values
