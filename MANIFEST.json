{
 "claims": [
  {
   "property": "C01",
   "status": "proved",
   "theorems": [
    "Verif.normpath_canonical",
    "Verif.normpath_abs_iff",
    "Verif.normpath_fixed_iff",
    "Verif.normpath_idempotent",
    "Verif.windows_normpath_not_idempotent"
   ],
   "note": "Windows semantics excluded; a counterexample to idempotence there is proved."
  },
  {
   "property": "C02",
   "status": "proved",
   "theorems": [
    "Verif.normpath_meaning",
    "Verif.normpath_eq_iff_same_location"
   ],
   "note": ""
  },
  {
   "property": "C03",
   "status": "proved",
   "theorems": [
    "Verif.absnormpath_canonical",
    "Verif.absnormpath_absolute",
    "Verif.absnormpath_meaning",
    "Verif.absnormpath_idempotent"
   ],
   "note": "The empty path denotes the root in this code, stated in absnormpath_meaning."
  },
  {
   "property": "C04",
   "status": "proved",
   "theorems": [
    "Verif.join_one",
    "Verif.join_fold",
    "Verif.join_restart",
    "Verif.join_assoc",
    "Verif.join_meaning",
    "Verif.normpath_join_meaning"
   ],
   "note": ""
  },
  {
   "property": "C05",
   "status": "proved",
   "theorems": [
    "Verif.split_lossless",
    "Verif.split_tail_no_sep",
    "Verif.split_head_no_trailing_sep",
    "Verif.split_join_meaning"
   ],
   "note": ""
  },
  {
   "property": "C06",
   "status": "proved",
   "theorems": [
    "Verif.splitdrive_lossless",
    "Verif.splitdrive_posix",
    "Verif.splitdrive_drive_shape"
   ],
   "note": ""
  },
  {
   "property": "C07",
   "status": "proved",
   "theorems": [
    "Verif.components_of_absPath",
    "Verif.path_of_components",
    "Verif.components_roundtrip",
    "Verif.components_unique"
   ],
   "note": ""
  },
  {
   "property": "C08",
   "status": "proved",
   "theorems": [
    "Verif.inode_identifies_object",
    "Verif.inode_identifies_stat",
    "Verif.samefile_iff",
    "Verif.inode_stable"
   ],
   "note": "All configurations."
  },
  {
   "property": "C09",
   "status": "proved",
   "theorems": [
    "Verif.directory_one_path",
    "Verif.directory_one_parent",
    "Verif.directory_not_below_itself",
    "Verif.no_cycles_at_all"
   ],
   "note": "no_cycles_at_all (objects outside the tree included) for case-sensitive POSIX; the others for all configurations."
  },
  {
   "property": "C10",
   "status": "proved",
   "theorems": [
    "Verif.nlink_counts_names",
    "Verif.nlink_directory"
   ],
   "note": "Case-sensitive POSIX filesystems."
  },
  {
   "property": "C11",
   "status": "proved",
   "theorems": [
    "Verif.usage_is_stored",
    "Verif.linked_iff_named",
    "Verif.one_device",
    "Verif.usage_rewrite_counterexample",
    "Verif.usage_unlinked_counterexample",
    "Verif.usage_devices_counterexample"
   ],
   "note": "One device, case-sensitive POSIX; contents written only to named files that are still empty (os.write: at most the buffer size). Outside these the claim is false of the code (counterexamples proved)."
  },
  {
   "property": "C12",
   "status": "proved",
   "theorems": [
    "Verif.quota_step",
    "Verif.quota_history",
    "Verif.quota_setDiskUsage",
    "Verif.quota_setDiskUsage_counterexample",
    "Verif.createFile_full",
    "Verif.writeBytes_existing"
   ],
   "note": "All calls except set_disk_usage; ENOSPC for create_file (createFile_full: nothing is left behind) and Path.write_bytes; for set_disk_usage on a limited device proved separately, for one without limit refuted."
  },
  {
   "property": "C13",
   "status": "proved",
   "theorems": [
    "Verif.createFile_effect",
    "Verif.createFile_outcome"
   ],
   "note": "Case-sensitive POSIX; parent exists (or create_missing_dirs is not needed); the user may remove entries of the parent (otherwise the clean-up after ENOSPC is refused, see DESIGN)."
  },
  {
   "property": "C14",
   "status": "proved",
   "theorems": [
    "Verif.mkdir_effect",
    "Verif.mkdir_outcome"
   ],
   "note": "Case-sensitive Linux-like filesystem with no device over its limit; the error table as root on link-free paths."
  },
  {
   "property": "C15",
   "status": "proved",
   "theorems": [
    "Verif.remove_effect",
    "Verif.remove_outcome"
   ],
   "note": "Case-sensitive Linux-like filesystem; mode bits agree with the object kind (Genuine)."
  },
  {
   "property": "C16",
   "status": "proved",
   "theorems": [
    "Verif.rmdir_effect",
    "Verif.rmdir_outcome"
   ],
   "note": "Case-sensitive Linux-like filesystem; directories readable (see DESIGN for the counterexample without)."
  },
  {
   "property": "C17",
   "status": "proved",
   "theorems": [
    "Verif.rename_effect",
    "Verif.rename_paths",
    "Verif.rename_outcome",
    "Verif.rename_same",
    "Verif.rename_exdev_counterexample",
    "Verif.rename_lost_counterexample"
   ],
   "note": "Case-sensitive Linux-like filesystems with one device, for a user who may remove the entries; with several devices or without permission on the target a failing rename loses data (counterexamples proved)."
  },
  {
   "property": "C18",
   "status": "proved",
   "theorems": [
    "Verif.link_effect",
    "Verif.contents_shared"
   ],
   "note": "Case-sensitive Linux-like filesystem; a failing link may still set the name attribute of the object (stated)."
  },
  {
   "property": "C19",
   "status": "proved",
   "theorems": [
    "Verif.symlink_effect",
    "Verif.symlink_followed",
    "Verif.readlink_symlink"
   ],
   "note": "Following is stated for paths whose resolved components are ordinary names; ELOOP is the only other outcome."
  },
  {
   "property": "C20",
   "status": "proved",
   "theorems": [
    "Verif.resolveComps_spec",
    "Verif.firstLink_location",
    "Verif.resolve_loop_eloop",
    "Verif.resolve_terminates",
    "Verif.resolve_object"
   ],
   "note": "Case-sensitive POSIX; termination is given the interpreter recursion limit is not smaller than the number of .. components."
  },
  {
   "property": "C21",
   "status": "proved",
   "theorems": [
    "Verif.resolvePath_no_symlink",
    "Verif.resolvePath_stable",
    "Verif.resolvePath_not_canonical"
   ],
   "note": "Canonical form is not claimed: it is false of the code (counterexample proved)."
  },
  {
   "property": "C22",
   "status": "proved",
   "theorems": [
    "Verif.failed_call",
    "Verif.flush_atomic",
    "Verif.write_atomic",
    "Verif.rename_exdev_counterexample",
    "Verif.rename_lost_counterexample",
    "Verif.createFile_overfull_counterexample",
    "Verif.createFile_cleanup_counterexample",
    "Verif.link_name_counterexample"
   ],
   "note": "Sixteen calls; case-sensitive Linux-like filesystems with no device over its limit, for a user who may remove the entries involved, rename within one device. Outside these hypotheses it is false of the code (counterexamples proved)."
  },
  {
   "property": "C23",
   "status": "proved",
   "theorems": [
    "Verif.listdir_entries",
    "Verif.listdir_lexists",
    "Verif.listdir_lexists_counterexample"
   ],
   "note": "lexists agreement needs the read bit on the directory (counterexample otherwise)."
  },
  {
   "property": "C24",
   "status": "proved",
   "theorems": [
    "Verif.osWalk_spec",
    "Verif.reported_dirs",
    "Verif.osWalk_no_oserror",
    "Verif.osWalk_unlisted",
    "Verif.osWalk_unreadable_counterexample"
   ],
   "note": "The filesystem does not change while the generator runs; names not starting with two dots; directories have a read bit (counterexample otherwise)."
  },
  {
   "property": "C25",
   "status": "proved",
   "theorems": [
    "Verif.directory_protected",
    "Verif.directory_frozen",
    "Verif.mkdir_denied",
    "Verif.remove_denied",
    "Verif.root_not_refused",
    "Verif.mkdir_outcome",
    "Verif.remove_outcome",
    "Verif.rmdir_outcome"
   ],
   "note": "Unprivileged users: every operation of the model. Root: mkdir/remove/rmdir never refused on filesystems whose directories the model can read; lresolve raises EACCES for an unreadable directory even as root (finding in DESIGN)."
  },
  {
   "property": "C26",
   "status": "proved",
   "theorems": [
    "Verif.chmod_type",
    "Verif.chmod_perm",
    "Verif.chmod_effect"
   ],
   "note": "Modes are natural numbers."
  },
  {
   "property": "C27",
   "status": "proved",
   "theorems": [
    "Verif.access_spec"
   ],
   "note": ""
  },
  {
   "property": "C28",
   "status": "proved",
   "theorems": [
    "Verif.umask_effect",
    "Verif.umask_returns",
    "Verif.mkdir_mode",
    "Verif.makedirs_mode",
    "Verif.open_mode",
    "Verif.mknod_mode",
    "Verif.osOpen_mode_counterexample"
   ],
   "note": "Case-sensitive POSIX; os.open with an explicit mode ignores the mask (counterexample proved)."
  },
  {
   "property": "C29",
   "status": "proved",
   "theorems": [
    "Verif.open_lowest",
    "Verif.osOpen_lowest",
    "Verif.std_kept",
    "Verif.fd_unambiguous",
    "Verif.fd_shared_only_by_fdopen",
    "Verif.closed_stays_closed",
    "Verif.bad_fd",
    "Verif.close_frees",
    "Verif.negative_fd_counterexample"
   ],
   "note": "Non-negative descriptor numbers; negative ones alias (counterexample proved)."
  },
  {
   "property": "C30",
   "status": "proved",
   "theorems": [
    "Verif.io_step",
    "Verif.io_bytes",
    "Verif.file_is_byteArray",
    "Verif.buffered_overwrite_counterexample",
    "Verif.truncate_cursor_counterexample"
   ],
   "note": "Successful calls on an update handle; writes that reach the end of the file, exceed the buffer or end within its first bufsize bytes, truncations not beyond the cursor: outside these the claim is false of the code (counterexamples proved)."
  },
  {
   "property": "C31",
   "status": "proved",
   "theorems": [
    "Verif.append_mode",
    "Verif.append_fd",
    "Verif.append_read_counterexample",
    "Verif.append_mixed_counterexample"
   ],
   "note": "File objects: successful write/seek/tell/flush/close, all other calls arbitrary; descriptors: successful os.write. Reading through the same a+ handle after a foreign change, and mixing os.write with buffered writes, break the claim (counterexamples proved)."
  },
  {
   "property": "C32",
   "status": "proved",
   "theorems": [
    "Verif.reader_current",
    "Verif.flush_visible",
    "Verif.close_visible",
    "Verif.unflushed_lost_counterexample"
   ],
   "note": "Readers: any history of any calls. Flush/close: any reachable state, other handles in any mode except append. Data not yet flushed through another writing handle can be lost (counterexample proved)."
  },
  {
   "property": "C33",
   "status": "proved",
   "theorems": [
    "Verif.mode_meaning",
    "Verif.open_existing",
    "Verif.open_missing",
    "Verif.open_new",
    "Verif.readonly_never_changes",
    "Verif.osReadonly_never_changes",
    "Verif.writeonly_never_reads",
    "Verif.osWriteonly_never_reads",
    "Verif.read_refused",
    "Verif.write_refused",
    "Verif.truncate_refused",
    "Verif.osRead_refused",
    "Verif.osWrite_refused",
    "Verif.ftruncate_readonly_counterexample"
   ],
   "note": "Calls through the file object and os.read/os.write/os.close; os.ftruncate ignores the open mode (counterexample proved)."
  },
  {
   "property": "C34",
   "status": "proved",
   "theorems": [
    "Verif.truncate_effect",
    "Verif.ftruncate_effect",
    "Verif.truncate_empty_counterexample"
   ],
   "note": "Non-empty files; for empty files the claim is false of the code (counterexample proved)."
  },
  {
   "property": "C35",
   "status": "proved",
   "theorems": [
    "Verif.setContents_atomic",
    "Verif.setContents_enospc",
    "Verif.truncate_atomic",
    "Verif.flush_atomic",
    "Verif.write_atomic"
   ],
   "note": ""
  },
  {
   "property": "C36",
   "status": "proved",
   "theorems": [
    "Verif.Stub.set_unset_all",
    "Verif.Stub.smart_set_unset_all",
    "Verif.Stub.set_inherited_counterexample",
    "Verif.Stub.set_mixed_counterexample",
    "Verif.Stub.smart_set_method_counterexample"
   ],
   "note": "Attributes in the namespace of the object itself; counterexamples for inherited attributes, mixed use and smart_set of classmethods."
  },
  {
   "property": "C37",
   "status": "proved",
   "theorems": [
    "Verif.Stub.patch_brackets",
    "Verif.Stub.pause_resume_idem",
    "Verif.Stub.setUp_twice_counterexample"
   ],
   "note": "Well-formed call sequences; counterexample for setUp called twice."
  },
  {
   "property": "C38",
   "status": "proved",
   "theorems": [
    "Verif.xattr_step",
    "Verif.xattr_map",
    "Verif.xattr_read",
    "Verif.setxattr_errno"
   ],
   "note": "The errno values of the two flags are swapped with respect to Linux, stated as they are."
  },
  {
   "property": "C39",
   "status": "proved",
   "theorems": [
    "Verif.mounts_distinct",
    "Verif.mounts_step",
    "Verif.setDiskUsage_mounts",
    "Verif.addMountPoint_mounts",
    "Verif.mounts_canon",
    "Verif.addMountPoint_effect",
    "Verif.diskUsage_deepest",
    "Verif.mkdir_effect",
    "Verif.createFile_effect",
    "Verif.symlink_effect",
    "Verif.rename_one_device",
    "Verif.rename_new_device",
    "Verif.diskUsage_prefix_counterexample",
    "Verif.addMountPoint_exists_counterexample",
    "Verif.rename_mount_counterexample",
    "Verif.link_device_counterexample"
   ],
   "note": "Case-sensitive POSIX filesystems. Disk usage: paths of which no mount path is a mere string prefix; rename: when it does not replace one hard link by another of the same object. False of the code otherwise (counterexamples proved)."
  },
  {
   "property": "C40",
   "status": "proved",
   "theorems": [
    "Verif.utime_cases",
    "Verif.utime_ns",
    "Verif.utime_bad_args",
    "Verif.toNs_int",
    "Verif.item_near",
    "Verif.item_floor",
    "Verif.item_counterexample"
   ],
   "note": "For every rounding of float operations to a nearest double."
  },
  {
   "property": "C41",
   "status": "proved",
   "theorems": [
    "Verif.case_resolve",
    "Verif.case_exists",
    "Verif.case_calls",
    "Verif.case_no_second",
    "Verif.init_noTwins",
    "Verif.twins_reachable",
    "Verif.null_spelling"
   ],
   "note": "Case-insensitive POSIX-style configuration; entry names contain no separator; neither the current directory nor a link target mentions the last component of the null device path. That mkdir can create two names differing only in case is proved as a counterexample."
  },
  {
   "property": "C42",
   "status": "proved",
   "theorems": [
    "Verif.makedirs_effect",
    "Verif.makedirs_dirs",
    "Verif.makedirs_again",
    "Verif.makedirs_idempotent",
    "Verif.makedirs_link_counterexample"
   ],
   "note": "Case-sensitive Linux-like filesystems; the effect for every path, the idempotence for paths without links (for a relative link in the path the claim is false of the code: counterexample proved)."
  },
  {
   "property": "C43",
   "status": "proved",
   "theorems": [
    "Verif.objPath_names",
    "Verif.objPath_leads_back",
    "Verif.objPath_drive_counterexample"
   ],
   "note": "Case-sensitive Linux configuration. Except for directories named like a Windows drive (counterexample) and, for the lookup, names starting with two dots and the null device; objects of directory type are directories (no mkdir with file-type bits)."
  },
  {
   "property": "C44",
   "status": "proved",
   "theorems": [
    "Verif.splitroot_posix",
    "Verif.splitroot_windows",
    "Verif.splitroot_extended_counterexample"
   ],
   "note": "POSIX: every path; Windows: every path except those starting with \\\\?\\\\\\ (counterexample proved)."
  },
  {
   "property": "C45",
   "status": "proved",
   "theorems": [
    "Verif.realpath_spec",
    "Verif.realpath_resolves",
    "Verif.realpath_relative_counterexample"
   ],
   "note": "Absolute paths; names and link targets without components starting with two dots other than .. itself; directories have a read bit."
  },
  {
   "property": "C46",
   "status": "proved",
   "theorems": [
    "Verif.cwd_absolute",
    "Verif.chdir_effect",
    "Verif.cwd_only_chdir",
    "Verif.cwd_not_canonical"
   ],
   "note": "\"canonical\" is false (counterexample); the rest is proved."
  },
  {
   "property": "C47",
   "status": "proved",
   "theorems": [
    "Verif.scandir_spec",
    "Verif.scandir_broken_counterexample"
   ],
   "note": "String paths; the whole iterator consumed while the filesystem does not change."
  },
  {
   "property": "C48",
   "status": "proved",
   "theorems": [
    "Verif.pathResolve_spec",
    "Verif.pathResolve_result",
    "Verif.pathResolve_realpath"
   ],
   "note": "The string form of the path is given (pathlib does the parsing); names and link targets without components starting with two dots other than .. itself; directories have a read bit; the current directory contains no symlink (and exists, in strict mode)."
  },
  {
   "property": "C49",
   "status": "proved",
   "theorems": [
    "Verif.chown_effect"
   ],
   "note": "String paths, integer ids (None as an id outside the model)."
  },
  {
   "property": "C50",
   "status": "proved",
   "theorems": [
    "Verif.owner_step",
    "Verif.owner_history",
    "Verif.times_forward",
    "Verif.times_past",
    "Verif.tree_call_times",
    "Verif.flush_stamps",
    "Verif.read_stamps",
    "Verif.open_existing",
    "Verif.chmod_effect"
   ],
   "note": "The clock is constant during a call. flush_stamps: files with contents in memory other than /dev/null."
  },
  {
   "property": "C51",
   "status": "proved",
   "theorems": [
    "Verif.stat_fields",
    "Verif.fstat_open",
    "Verif.descriptor_step",
    "Verif.fstat_same_file",
    "Verif.close_closefd",
    "Verif.close_deletes"
   ],
   "note": "close_deletes: case-sensitive POSIX configuration, the file is still found under the name and directory stored with it, by a path without links."
  },
  {
   "property": "C52",
   "status": "proved",
   "theorems": [
    "Verif.io_keeps_tree",
    "Verif.io_keeps_paths"
   ],
   "note": "Paths: unless the contents of a symlink object were written (symlinks are never opened by path resolution)."
  },
  {
   "property": "C53",
   "status": "proved",
   "theorems": [
    "Verif.relpath_meaning",
    "Verif.relpath_empty",
    "Verif.relpath_separator_counterexample"
   ],
   "note": "POSIX configuration with the host separator; the copied posixpath.relpath of a POSIX host is part of the model."
  },
  {
   "property": "C54",
   "status": "proved",
   "theorems": [
    "Verif.queries_stat",
    "Verif.queries_fail",
    "Verif.islink_lstat",
    "Verif.readlink_islink",
    "Verif.exists_stat",
    "Verif.ismount_iff",
    "Verif.stat_parent_counterexample"
   ],
   "note": "exists_stat: all entries of directory type are directories (no mkdir with file-type bits)."
  },
  {
   "property": "C55",
   "status": "proved",
   "theorems": [
    "Verif.dirFd_ignored",
    "Verif.dirFd_closed",
    "Verif.dirFd_meaning",
    "Verif.dirFd_calls",
    "Verif.dirFd_rename",
    "Verif.symlink_dirFd_counterexample"
   ],
   "note": "Functions supporting dir_fd on the host; string paths."
  },
  {
   "property": "C56",
   "status": "proved",
   "theorems": [
    "Verif.win_keeps_entry",
    "Verif.win_remove_denied"
   ],
   "note": "Windows configuration, case-sensitive or not. Renaming a directory around the file moves the entry along with its directory."
  },
  {
   "property": "C57",
   "status": "proved",
   "theorems": [
    "Verif.readBytes_existing",
    "Verif.writeBytes_existing",
    "Verif.write_read",
    "Verif.writeBytes_new",
    "Verif.touch_existing",
    "Verif.touch_new",
    "Verif.touch_plain"
   ],
   "note": "Bytes only (text encodings are outside the model). The file must not be open elsewhere with unflushed data to see only these changes: other handles keep their own buffers (C32)."
  },
  {
   "property": "C58",
   "status": "proved",
   "theorems": [
    "Verif.splitdrive_parts",
    "Verif.parts_unique",
    "Verif.win_isabs",
    "Verif.win_normpath_parts",
    "Verif.win_normpath_idempotent",
    "Verif.win_normpath_meaning",
    "Verif.windows_normpath_not_idempotent"
   ],
   "note": "A path without drive that contains a colon can get a drive by being normalised (windows_normpath_not_idempotent), hence the condition."
  },
  {
   "property": "C59",
   "status": "proved",
   "theorems": [
    "Verif.win_join_meaning",
    "Verif.travels_exists",
    "Verif.win_join_absolute",
    "Verif.win_abspath",
    "Verif.demoWin_cwd",
    "Verif.win_join_counterexample"
   ],
   "note": "For paths that are not ordinary joining can invent a drive (win_join_counterexample)."
  },
  {
   "property": "C60",
   "status": "proved",
   "theorems": [
    "Verif.win_splitpath",
    "Verif.win_split_counterexample"
   ],
   "note": "A second colon loses the text after it (win_split_counterexample)."
  },
  {
   "property": "C61",
   "status": "proved",
   "theorems": [
    "Verif.stat_trailing",
    "Verif.stat_trailing_missing",
    "Verif.isfile_trailing",
    "Verif.getsize_trailing",
    "Verif.listdir_trailing",
    "Verif.exists_trailing",
    "Verif.remove_trailing",
    "Verif.open_trailing",
    "Verif.lstat_trailing",
    "Verif.mknod_trailing",
    "Verif.link_trailing",
    "Verif.trailing_counterexample"
   ],
   "note": "exists of a FIFO with a trailing separator is True and lstat of a link with one describes the link (trailing_counterexample); stat is stated for the superuser, who is not subject to directory permissions."
  },
  {
   "property": "C62",
   "status": "proved",
   "theorems": [
    "Verif.mkdir_existing",
    "Verif.makedirs_existing",
    "Verif.createDir_existing",
    "Verif.createFile_existing",
    "Verif.symlink_existing",
    "Verif.link_existing",
    "Verif.mknod_existing",
    "Verif.open_exclusive"
   ],
   "note": "open with x of a name in a cycle of links fails with ELOOP instead (example)."
  },
  {
   "property": "C63",
   "status": "proved",
   "theorems": [
    "Verif.removeObject_tree",
    "Verif.removeObject_inside",
    "Verif.removeObject_half_way"
   ],
   "note": "A removal that fails half way has removed part of the subtree (removeObject_half_way)."
  },
  {
   "property": "C64",
   "status": "proved",
   "theorems": [
    "Verif.Real.mapped_snapshot",
    "Verif.Real.mapped_written",
    "Verif.Real.mapped_stat",
    "Verif.Real.mapped_read_only",
    "Verif.Real.add_real_missing"
   ],
   "note": "Own model (Verif/Real.lean): the real filesystem as environment. Deviations proved in Real.mapped_counterexamples."
  },
  {
   "property": "C65",
   "status": "proved",
   "theorems": [
    "Verif.Real.lazy_transparent",
    "Verif.Real.eager_leaves",
    "Verif.Real.eager_image"
   ],
   "note": "The real tree is constant here. With lazy_read=False empty directories are lost (Real.eager_empty_counterexample)."
  },
  {
   "property": "C66",
   "status": "proved",
   "theorems": [
    "Verif.io_isolated",
    "Verif.io_isolated_history"
   ],
   "note": "Closing is not included (it changes the table of open files; C29, C52)."
  },
  {
   "property": "C67",
   "status": "proved",
   "theorems": [
    "Verif.fd_is_byteArray",
    "Verif.sendfile_copies",
    "Verif.fsync_spec"
   ],
   "note": "Unlike for file objects (C30) no restriction to safe writes is needed for os.write; sendfile uses the file object's write and keeps the restriction."
  },
  {
   "property": "C68",
   "status": "proved",
   "theorems": [
    "Verif.append_is_byteArray",
    "Verif.append_seek_relative_counterexample",
    "Verif.append_truncate_counterexample"
   ],
   "note": "seek relative to the current position goes wrong in pyfakefs (counterexample); truncate of append handles is not covered (counterexample)."
  },
  {
   "property": "C69",
   "status": "proved",
   "theorems": [
    "Verif.stat_result_eq",
    "Verif.stat_result_equiv",
    "Verif.stat_result_record",
    "Verif.stat_result_item",
    "Verif.stat_result_items",
    "Verif.stat_result_copy",
    "Verif.stat_result_setFrom",
    "Verif.file_attributes_posix",
    "Verif.file_attributes_counterexample"
   ],
   "note": "The Windows attributes of directories and regular files are wrong in pyfakefs (counterexample for all permission bits)."
  },
  {
   "property": "C70",
   "status": "proved",
   "theorems": [
    "Verif.file_lines",
    "Verif.line_first",
    "Verif.firstLine_unique",
    "Verif.lines_of",
    "Verif.linesOf_unique",
    "Verif.writelines_write",
    "Verif.append_iteration_counterexample",
    "Verif.closed_iteration_counterexample"
   ],
   "note": "writelines is modelled for a list (an iterator would be consumed by the first attempt)."
  },
  {
   "property": "C71",
   "status": "proved",
   "theorems": [
    "Verif.writeText_existing",
    "Verif.readText_existing",
    "Verif.write_read_text",
    "Verif.text_file",
    "Verif.universal_of",
    "Verif.universal_unique",
    "Verif.universal_no_cr",
    "Verif.universal_same",
    "Verif.ascii_faithful"
   ],
   "note": "The encoding is a parameter (any pair of functions); stateful encodings such as UTF-16 with byte order mark, and mixed reading and writing in text mode, are not modelled."
  },
  {
   "property": "C72",
   "status": "proved",
   "theorems": [
    "Verif.Patch.find_exact",
    "Verif.Patch.find_cached",
    "Verif.Patch.target_unique",
    "Verif.Patch.patched_exactly"
   ],
   "note": "Objects are seen through inspect, __name__, __module__ and __dict__, without side effects of looking at them; default arguments are covered by C37."
  },
  {
   "property": "C73",
   "status": "proved",
   "theorems": [
    "Verif.Patch.import_fake",
    "Verif.Patch.restored_fake",
    "Verif.Patch.dropped_new",
    "Verif.Patch.kept_loaded",
    "Verif.Patch.leaked_fake"
   ],
   "note": "Assignments to sys.modules by the test are not modelled; what reload of modules_to_reload does is not modelled beyond the entry staying."
  },
  {
   "property": "C74",
   "status": "proved",
   "theorems": [
    "Verif.refines",
    "Verif.refines_from",
    "Verif.refines_step",
    "Verif.init_refSt"
   ],
   "note": "refinement to SpecRef.Ref.Step: refines_step is the simulation for one call, refines the theorem for histories from a new filesystem; renames between names that differ only in case are excluded (known deviation)"
  },
  {
   "property": "C75",
   "status": "proved",
   "theorems": [
    "Verif.fsync_all",
    "Verif.not_available",
    "Verif.sendfile_mac",
    "Verif.readlink_trailing",
    "Verif.symlink_trailing",
    "Verif.isDriveLetter_iff",
    "Verif.readlink_relative_loop",
    "Verif.readlink_file_sep"
   ],
   "note": "two deviations proved by example: a relative self-link outside the current directory gives ENOENT, and a link to a regular file is read although POSIX prescribes ENOTDIR"
  },
  {
   "property": "C76",
   "status": "proved",
   "theorems": [
    "Verif.fdRefines_step",
    "Verif.fdRefines_from",
    "Verif.init_sysSt",
    "Verif.fdRefines"
   ],
   "note": "three answers of the reference system are pyfakefs's and not Linux's (listed in SpecFd.lean): os.read of a directory descriptor, opening below a file without O_CREAT, opening a directory with O_CREAT|O_EXCL"
  },
  {
   "property": "C77",
   "status": "proved",
   "theorems": [
    "Verif.spellings_read",
    "Verif.spellings_attr",
    "Verif.spellings_make",
    "Verif.spellings_open",
    "Verif.spellings_link",
    "Verif.spellings_rename",
    "Verif.spellings_counterexample"
   ],
   "note": "Spellings is defined from resolve_path alone; names contain no \"..\", the null device is not involved, and the budget clause excludes only that the longer chain of links fails with ELOOP where the shorter one does not. Not covered: os.makedirs and rename onto an existing target (the code looks those up with relative links taken from the current directory, spellings_counterexample)."
  },
  {
   "property": "C78",
   "status": "proved",
   "theorems": [
    "Verif.rename_windows_refused",
    "Verif.replace_windows_refused",
    "Verif.replace_windows_file",
    "Verif.rename_into_file",
    "Verif.rename_self_sep",
    "Verif.remove_directory",
    "Verif.remove_dirlink_sep",
    "Verif.remove_broken_sep",
    "Verif.rmdir_dot",
    "Verif.rmdir_link",
    "Verif.link_directory",
    "Verif.link_old_sep",
    "Verif.addObject_nondir",
    "Verif.makedirs_through_file",
    "Verif.posix_only",
    "Verif.open_directory",
    "Verif.open_new_sep",
    "Verif.open_excl_link",
    "Verif.osOpen_directory",
    "Verif.stat_file_sep",
    "Verif.mkdir_in_use",
    "Verif.makedirs_broken_mac",
    "Verif.add_protected",
    "Verif.raw_empty",
    "Verif.symlink_sep",
    "Verif.link_new_sep",
    "Verif.readlink_sep",
    "Verif.islink_sep",
    "Verif.lstat_link_sep",
    "Verif.rename_link_dir",
    "Verif.dotdot_windows",
    "Verif.followLink_unc",
    "Verif.lresolve_below_file",
    "Verif.getObject_below_file",
    "Verif.mkdir_no_parent",
    "Verif.unsupported_all",
    "Verif.truncate_readonly",
    "Verif.rename_link_self"
   ],
   "note": "The theorems assume no invariant (osOpen_directory: a reachable state); what is at a path is stated with the lookup calls of the API. open_directory excludes truncating modes: open(dir, \"w\") fails with EISDIR on every platform, also Windows (recorded as a finding)."
  },
  {
   "property": "C79",
   "status": "proved",
   "theorems": [
    "Verif.dir_size",
    "Verif.dir_size_all",
    "Verif.Spec.FilesBelow.unique"
   ],
   "note": "Spec.FilesBelow lists the paths below a directory (as lists of names) that lead to non-directories, each once; dir_size proves that such a list exists and gives the size, Spec.FilesBelow.unique that it is determined up to order, dir_size_all that every such list gives the size."
  },
  {
   "property": "C80",
   "status": "proved",
   "theorems": [
    "Verif.chmod_windows",
    "Verif.read_windows",
    "Verif.flush_windows",
    "Verif.flush_remembers",
    "Verif.close_windows"
   ],
   "note": "flush_windows and close_windows exclude /dev/null and files of unknown contents; close_windows excludes descriptors from os.open (never flushed on close) and delete-on-close files. open(..., \"w\") on Windows is in C33 (open_existing: mtime set, ctime kept)."
  },
  {
   "property": "C81",
   "status": "proved",
   "theorems": [
    "Verif.rename_spelling",
    "Verif.respelled_lookup"
   ],
   "note": "The path is given by what it resolves to (both spellings resolve to the same object of the same directory on the same device)."
  },
  {
   "property": "C82",
   "status": "proved",
   "theorems": [
    "Verif.autoMount_drive",
    "Verif.drive_letter",
    "Verif.no_autoMount",
    "Verif.drive_stays"
   ],
   "note": ""
  },
  {
   "property": "C83",
   "status": "proved",
   "theorems": [
    "Verif.createFile_large",
    "Verif.large_refused",
    "Verif.large_osRead",
    "Verif.open_large",
    "Verif.truncate_large",
    "Verif.large_update_counterexample",
    "Verif.large_append_counterexample",
    "Verif.mknod_large_counterexample",
    "Verif.mknod_relative_counterexample"
   ],
   "note": ""
  },
  {
   "property": "C84",
   "status": "proved",
   "theorems": [
    "Verif.osWalk_yields",
    "Verif.yields_unique",
    "Verif.yields_paths",
    "Verif.osWalk_follow_ends"
   ],
   "note": "The interpreter must allow as many nested calls as 42 times the number of objects (a path is found through at most 41 links). onerror=None; the filesystem and the lists do not change during the walk. Names start with no two dots, objects of directory type are directories, nothing exists at the path of the null device."
  },
  {
   "property": "C85",
   "status": "proved",
   "theorems": [
    "Verif.written_read",
    "Verif.written_attr",
    "Verif.written_remove",
    "Verif.written_make",
    "Verif.written_open",
    "Verif.written_osOpen",
    "Verif.written_mknod_counterexample",
    "Verif.written_up_counterexample",
    "Verif.written_mkdir_counterexample"
   ],
   "note": "No name begins with two dots. Where the path goes up from what does not exist the calls disagree (written_up_counterexample); os.mkdir(\"/../z\") fails (written_mkdir_counterexample). The path is not the null device or in it; the current directory has a normalised path (true unless chdir was given \"\" or \"//x\": see C03). os.open: not on Windows, usage within the sizes of the file systems, directories have directory type. create_file, create_dir and symlink: separator \"/\"."
  },
  {
   "property": "C86",
   "status": "proved",
   "theorems": [
    "Verif.talks",
    "Verif.talks_step"
   ],
   "note": "The reference is SpecRef (see C74 for its three deviations from Linux) and SpecText: the current directory is a location, not a directory (it does not follow a rename, as on Linux), and os.mkdir of a bare name in a removed current directory reports ENOTDIR if the way there leads through a file. The path of os.mkdir does not go up; \"..\" is lexical. Paths that create, remove or rename end with a name. Root user, one device of unlimited size."
  },
  {
   "property": "C87",
   "status": "proved",
   "theorems": [
    "Verif.fdTalks",
    "Verif.fdTalks_step"
   ],
   "note": "C76 and C86 together; the reference is SpecFd, SpecText and SpecFdText, with the deviations from Linux named there. A path that is opened with O_CREAT ends with a name. Truncating an empty file to a positive size is left out (C34: it gets a size without contents), as is os.ftruncate of the descriptor of a directory; os.truncate of a directory raises AttributeError, os.ftruncate works through descriptors open for reading only, and os.access below a file raises ENOTDIR. Root user, one device of unlimited size."
  },
  {
   "property": "C88",
   "status": "proved",
   "theorems": [
    "Verif.lives",
    "Verif.deeds_step"
   ],
   "note": "The reference is SpecLife, over SpecFdText. Symbolic links are outside (as in C87). A mode or a umask without the owner's read permission is outside (pyfakefs refuses some calls on such a file even for root)."
  }
 ]
}