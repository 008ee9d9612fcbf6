import re,glob
names="""C06_slots_distinct C07_tensor_on_runs C09_flag_wrong_type_stops C09_int_value_starts_with_literal C10_exception_only_from_numbers C11_assignment C21_dense_to_coo C24_grid_sources C25_short_file_safe C31_LO_symmetric C31_potential_symmetric C94_matrix_symmetric C32_potential_matrix C38_bracketed C40_recorded_cells C47_complete_unless_count C49_columns C51_range C52_breakup_write C54_status_nonzero_iff C56_in_range_after_push C61_short_name_copied C62_energy_file_in_list C63_nonempty_file C64_valid_channel_index C66_other_basis_rejected C67_failed_write C68_single_set C68_other_settings_apart C82_headings_distinct C91_wellformed C92_boundary C93_stored_matrix""".split()
R={n+'_partial':n for n in names}
R['C61_short_name_copied_partial']='C61_name_copied_exactly'
pat=re.compile(r'\b('+'|'.join(map(re.escape,R))+r')\b')
if __name__=='__main__':
    for f in glob.glob('/verif/lean/Verif/**/*.lean',recursive=True)+['/tmp/mani_data.py','/verif/DESIGN.md','/tmp/mutw/notes.py']:
        s=open(f).read(); t=pat.sub(lambda m:R[m.group(1)],s)
        if t!=s: open(f,'w').write(t); print(f)
