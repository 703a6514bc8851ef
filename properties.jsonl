{"id": "C01", "title": "normpath is canonical and idempotent", "statement": "On a POSIX-style fake filesystem os.path.normpath(p) contains no empty and no '.' component, contains '..' only as a leading run of a relative path, is '.' when nothing is left, and normalising twice equals normalising once.", "quantifier": "every path string, unbounded length and number of components; every separator character", "why_tests_cant": "unit tests list a few dozen paths; the claim is about all strings", "anchors": ["pyfakefs/fake_filesystem.py:FakeFilesystem.normpath"]}
{"id": "C02", "title": "normpath preserves lexical meaning", "statement": "Evaluating the components of normpath(p) from any starting directory stack (a name pushes, '..' pops, '.' and '' do nothing, absolute paths restart) gives the same location as evaluating p.", "quantifier": "every path string, unbounded length and number of components; every starting directory", "why_tests_cant": "needs an independent semantics of paths and all strings", "anchors": ["pyfakefs/fake_filesystem.py:FakeFilesystem.normpath"]}
{"id": "C03", "title": "absnormpath is absolute, canonical and anchored at the cwd", "statement": "absnormpath(p) is an absolute canonical path; it equals normpath(p) for absolute p whatever the cwd is, denotes the location reached from the cwd for relative p, and applying it again (under any cwd) changes nothing.", "quantifier": "every path string, unbounded length and number of components; every absolute cwd", "why_tests_cant": "all strings x all cwds", "anchors": ["pyfakefs/fake_filesystem.py:FakeFilesystem.absnormpath"]}
{"id": "C04", "title": "join semantics", "statement": "os.path.join restarts at the last absolute argument, is associative, has the one-argument call as identity, and (composed with normalisation) means 'go to a, then to b'.", "quantifier": "every list of path strings", "why_tests_cant": "unbounded number and size of arguments", "anchors": ["pyfakefs/fake_filesystem.py:FakeFilesystem.joinpaths"]}
{"id": "C05", "title": "split/join round trip", "statement": "For (h,t)=os.path.split(p): t contains no separator, h does not end with a separator unless it is the root, and join(h,t) denotes the same location as p.", "quantifier": "every path string, unbounded length and number of components", "why_tests_cant": "all strings", "anchors": ["pyfakefs/fake_filesystem.py:FakeFilesystem.splitpath", "pyfakefs/fake_filesystem.py:FakeFilesystem.joinpaths"]}
{"id": "C06", "title": "splitdrive is lossless", "statement": "os.path.splitdrive(p) returns two strings whose concatenation is p (with the alternative separator replaced on a Windows filesystem); without Windows semantics the drive is empty.", "quantifier": "every path string, unbounded length and number of components; all separator/OS settings", "why_tests_cant": "all strings, UNC corner cases", "anchors": ["pyfakefs/fake_filesystem.py:FakeFilesystem.splitdrive"]}
{"id": "C07", "title": "component decomposition round trip", "statement": "Splitting a canonical absolute path into components and joining them again is the identity, and every list of proper names is obtained from exactly one canonical path.", "quantifier": "every path string, unbounded length and number of components", "why_tests_cant": "all strings", "anchors": ["pyfakefs/fake_filesystem.py:FakeFilesystem._path_components", "pyfakefs/fake_filesystem.py:FakeFilesystem._components_to_path"]}
{"id": "C08", "title": "inode numbers identify objects", "statement": "In every reachable state two different file system objects reachable by paths have different st_ino; samefile/inode comparison never confuses two files.", "quantifier": "every history (finite sequence of API calls with arbitrary arguments, including failing calls) from a fresh filesystem", "why_tests_cant": "invariant over unbounded histories", "anchors": ["pyfakefs/fake_filesystem.py:FakeDirectory.add_entry", "pyfakefs/fake_filesystem.py:FakePathModule.samefile"]}
{"id": "C09", "title": "the directory graph is a tree rooted at /", "statement": "In every reachable state each directory in the tree except the root is the child of exactly one directory under exactly one name, and no directory is its own ancestor: no operation (in particular no rename) can make a cycle.", "quantifier": "every history (finite sequence of API calls with arbitrary arguments, including failing calls) from a fresh filesystem", "why_tests_cant": "invariant over unbounded histories", "anchors": ["pyfakefs/fake_filesystem.py:FakeDirectory.add_entry", "pyfakefs/fake_filesystem.py:FakeDirectory.remove_entry", "pyfakefs/fake_filesystem.py:FakeFilesystem.rename", "pyfakefs/fake_filesystem.py:FakeDirectory.has_parent_object"]}
{"id": "C10", "title": "st_nlink counts names", "statement": "On a case-sensitive POSIX filesystem, in every reachable state st_nlink of a regular file or symlink equals the number of directory entries referring to it, and st_nlink of a directory equals 1 plus the number of its entries plus the number of entries referring to it.", "quantifier": "every history (finite sequence of API calls with arbitrary arguments, including failing calls) from a fresh filesystem", "why_tests_cant": "invariant over unbounded histories", "anchors": ["pyfakefs/fake_filesystem.py:FakeDirectory.add_entry", "pyfakefs/fake_filesystem.py:FakeDirectory.remove_entry", "pyfakefs/fake_filesystem.py:FakeFilesystem.create_link"]}
{"id": "C11", "title": "used disk space is the sum of the file sizes", "statement": "On a case-sensitive POSIX filesystem with one device, after any history (failing calls included) in which contents are written only to files that have a path and are still empty (creating, linking, renaming, removing, truncating and resizing freely), the used size of the device is the sum of st_size over the files with at least one link, each counted once; these are exactly the files with a path if no directory with entries has been lost. Without add_mount_point everything with a path stays on the one device after any history whatsoever. (Writing into a file that has contents releases its size twice, writing into a file without a name is charged forever, a hard link across devices is charged to one and released on the other: counterexamples proved.)", "quantifier": "every history (finite sequence of API calls with arbitrary arguments, including failing calls) without add_mount_point from a fresh filesystem with any limit; for the sum: those in which contents are first contents of named files", "why_tests_cant": "accounting invariant over unbounded histories", "anchors": ["pyfakefs/fake_filesystem.py:FakeFilesystem.change_disk_usage", "pyfakefs/fake_filesystem.py:FakeFile._set_initial_contents", "pyfakefs/fake_filesystem.py:FakeFile.size", "pyfakefs/fake_filesystem.py:FakeDirectory.remove_entry"]}
{"id": "C12", "title": "the disk quota is never exceeded", "statement": "If a device has a total size, no operation makes its used size exceed it: a call which would do so raises ENOSPC. (Exception, proved as a counterexample: set_disk_usage on a device without limit accepts a limit below the used size.)", "quantifier": "every history (finite sequence of API calls with arbitrary arguments, including failing calls) from a fresh filesystem", "why_tests_cant": "invariant over unbounded histories", "anchors": ["pyfakefs/fake_filesystem.py:FakeFilesystem.change_disk_usage", "pyfakefs/fake_filesystem.py:FakeFilesystem.set_disk_usage"]}
{"id": "C13", "title": "create_file makes exactly one new name", "statement": "A successful create_file(p, contents) on a canonical path with existing parent makes p resolve to a new regular file holding exactly those contents and leaves the meaning of every other path unchanged. At a path whose parent is a readable location without links it fails exactly with ENOTDIR if the parent is not a directory, EEXIST if the name exists, EACCES if the caller may not write the parent, and ENOSPC if the contents (or st_size) do not fit on the parent's device (EACCES if the caller lacks the permission to take the file out again).", "quantifier": "every well-formed filesystem state, every path, every contents", "why_tests_cant": "all states x all other paths (frame)", "anchors": ["pyfakefs/fake_filesystem.py:FakeFilesystem.create_file_internally", "pyfakefs/fake_filesystem.py:FakeFilesystem.add_object"]}
{"id": "C14", "title": "mkdir makes exactly one new empty directory", "statement": "A successful mkdir(p) makes p an empty directory, leaves every other path unchanged; mkdir fails with EEXIST iff the name exists and ENOENT iff the parent is missing, changing nothing.", "quantifier": "every well-formed state and path", "why_tests_cant": "all states, frame condition", "anchors": ["pyfakefs/fake_filesystem.py:FakeFilesystem.makedir"]}
{"id": "C15", "title": "unlink removes exactly one name", "statement": "A successful remove(p) of a file makes exactly the name p disappear: all other paths keep their meaning, other hard links keep the contents, and a directory is never removed by remove().", "quantifier": "every well-formed state and path", "why_tests_cant": "all states, frame condition", "anchors": ["pyfakefs/fake_filesystem.py:FakeFilesystem.remove", "pyfakefs/fake_filesystem.py:FakeFilesystem.remove_object", "pyfakefs/fake_filesystem.py:FakeDirectory.remove_entry"]}
{"id": "C16", "title": "rmdir removes only empty directories", "statement": "rmdir(p) succeeds only for an existing empty directory, removes exactly that name, and raises ENOTEMPTY/ENOTDIR/ENOENT otherwise with the filesystem unchanged.", "quantifier": "every well-formed state and path", "why_tests_cant": "all states", "anchors": ["pyfakefs/fake_filesystem.py:FakeFilesystem.rmdir"]}
{"id": "C17", "title": "rename moves a subtree", "statement": "On a case-sensitive Linux-like filesystem with one device, for a user who may remove the entries, a successful rename(old,new) makes every path under new mean what the corresponding path under old meant before, every path under old is gone, and all other paths are unchanged; renaming a directory below itself fails with EINVAL, and a failing rename changes nothing. (Across devices or without write permission on the target directory a failing rename can lose data: counterexamples proved.)", "quantifier": "every well-formed state, every pair of paths", "why_tests_cant": "all states, all paths below old and new", "anchors": ["pyfakefs/fake_filesystem.py:FakeFilesystem.rename"]}
{"id": "C18", "title": "hard links share one file", "statement": "After link(a,b) both names resolve to the same object: contents written through one are read through the other, and no other path changes. A failing link changes at most the name attribute of the object.", "quantifier": "every well-formed state and pair of paths", "why_tests_cant": "all states, all later writes", "anchors": ["pyfakefs/fake_filesystem.py:FakeFilesystem.create_link"]}
{"id": "C19", "title": "symlinks store and follow their target", "statement": "readlink(p) returns exactly the target given to symlink; stat/open/exists through p act on the target path, lstat/readlink/unlink on the link itself.", "quantifier": "every state, link path and target", "why_tests_cant": "all states and targets", "anchors": ["pyfakefs/fake_filesystem.py:FakeFilesystem.create_symlink", "pyfakefs/fake_filesystem.py:FakeFilesystem.readlink", "pyfakefs/fake_filesystem.py:FakeFilesystem.resolve_path"]}
{"id": "C20", "title": "path resolution always terminates", "statement": "Resolving any path in any state (cyclic, self-referential or arbitrarily long symlink chains) finishes: it returns a path or raises OSError; a chain that never leaves symlinks raises ELOOP.", "quantifier": "every state including cyclic link graphs, every path", "why_tests_cant": "termination cannot be observed by tests", "anchors": ["pyfakefs/fake_filesystem.py:FakeFilesystem._resolve_components", "pyfakefs/fake_filesystem.py:FakeFilesystem._follow_link", "pyfakefs/fake_filesystem.py:FakeFilesystem._valid_relative_path"]}
{"id": "C21", "title": "a resolved path contains no symlink and is stable", "statement": "If resolve_path(p) returns q then no existing prefix of q is a symlink and resolve_path(q)=q. (q need not be normalised: a link in the root with too many '..' in its target gives '/../x', proved as a counterexample.)", "quantifier": "every state and path", "why_tests_cant": "all link graphs", "anchors": ["pyfakefs/fake_filesystem.py:FakeFilesystem.resolve_path"]}
{"id": "C22", "title": "failed operations change nothing", "statement": "On a case-sensitive Linux-like filesystem with no device over its limit, if mkdir, mknod, create_file, symlink, link, remove, rmdir, rename (within one device), truncate, chmod, chown, utime, setxattr, removexattr, chdir or set_disk_usage raises, every path resolves as before and contents, modes, link counts and used disk space are unchanged (the user being allowed to remove entries of the directories involved). (Across devices, without these permissions and on an overfull device failing calls do change the tree: counterexamples proved.)", "quantifier": "every state, argument and failure point", "why_tests_cant": "every failure point of every call", "anchors": ["pyfakefs/fake_filesystem.py:FakeFilesystem.rename", "pyfakefs/fake_filesystem.py:FakeFilesystem.remove_object", "pyfakefs/fake_filesystem.py:FakeFilesystem.makedir", "pyfakefs/fake_filesystem.py:FakeFilesystem.create_file_internally"]}
{"id": "C23", "title": "listdir reports exactly the entries", "statement": "listdir(d) returns, without duplicates, exactly the names n for which d/n exists (lexists; for a broken link this needs read permission on d, counterexample proved otherwise).", "quantifier": "every reachable state and directory", "why_tests_cant": "all reachable states", "anchors": ["pyfakefs/fake_filesystem.py:FakeFilesystem.listdir"]}
{"id": "C24", "title": "os.walk visits every directory exactly once", "statement": "os.walk without onerror never raises an OSError, whatever the filesystem and the platform, and yields nothing for a directory that cannot be listed. On a case-sensitive POSIX filesystem, os.walk(top) without followlinks ends without an error whatever symlinks exist (cycles included), if the directories are nested less deeply than the interpreter's recursion limit; it reports every directory below top exactly once with exactly its entries split into those for which os.path.isdir holds and the others, parents before children (topdown) or after them (bottom-up). (In a directory without read permission it follows symlinks even though not asked to: counterexample proved.)", "quantifier": "every reachable filesystem whose directories have a read bit, with ordinary names; every depth and width", "why_tests_cant": "all trees, unbounded depth", "anchors": ["pyfakefs/fake_scandir.py:walk", "pyfakefs/fake_scandir.py:_classify_directory_contents"]}
{"id": "C25", "title": "directory permissions are enforced", "statement": "On POSIX a non-root user can never add an entry to a directory without owner write permission nor remove one from a directory without write and execute permission (EACCES, nothing changes), while root is never refused by these checks.", "quantifier": "every state, user and operation", "why_tests_cant": "all states", "anchors": ["pyfakefs/fake_filesystem.py:FakeDirectory.add_entry", "pyfakefs/fake_filesystem.py:FakeDirectory.remove_entry"]}
{"id": "C26", "title": "chmod changes exactly the permission bits", "statement": "After chmod(p,mode) on POSIX the file type bits are unchanged and the 12 permission bits equal mode & 0o7777; on a Windows filesystem only write permission can change; no other object changes.", "quantifier": "all non-negative modes and all objects", "why_tests_cant": "2^k modes", "anchors": ["pyfakefs/fake_filesystem.py:FakeFilesystem.chmod"]}
{"id": "C27", "title": "access agrees with the permission bits", "statement": "os.access(p, m) is True iff every requested bit of m is among the owner permission bits (write is always granted to root).", "quantifier": "all states, modes", "why_tests_cant": "all modes x masks", "anchors": ["pyfakefs/fake_filesystem.py:FakeOsModule.access"]}
{"id": "C28", "title": "umask applies to every created object", "statement": "Files and directories created by open, mkdir, makedirs and mknod have mode requested & ~umask, and umask() returns the previous mask. (os.open with an explicit mode ignores the mask: counterexample proved.)", "quantifier": "all masks, modes", "why_tests_cant": "all bit masks", "anchors": ["pyfakefs/fake_filesystem.py:FakeFilesystem.makedir", "pyfakefs/fake_filesystem.py:FakeFilesystem.create_file_internally", "pyfakefs/fake_filesystem.py:FakeOsModule.umask"]}
{"id": "C29", "title": "file descriptors are lowest-free and unambiguous", "statement": "For every history of opens and closes: a new descriptor is the smallest number not in use, two open files never share a descriptor unless opened from that descriptor, standard streams keep 0-2, and any descriptor that is not open raises EBADF.", "quantifier": "every interleaving of open/close; non-negative descriptor numbers (negative ones alias open files, counterexample proved)", "why_tests_cant": "unbounded histories", "anchors": ["pyfakefs/fake_filesystem.py:FakeFilesystem._add_open_file", "pyfakefs/fake_filesystem.py:FakeFilesystem._close_open_file", "pyfakefs/fake_filesystem.py:FakeFilesystem.get_open_file"]}
{"id": "C30", "title": "a binary file handle behaves like a byte array with a cursor", "statement": "For every sequence of successful read/write/seek/tell/truncate/flush calls on one handle, results equal those of a byte array with a position, and after close the file contains exactly that array, provided every write reaches the end of the data, exceeds the buffer size or ends within the first buffer, and no truncate goes beyond the cursor. (Outside these conditions the claim is false of the code: counterexamples proved.)", "quantifier": "every sequence of I/O calls, every buffer size", "why_tests_cant": "unbounded call sequences, buffer boundary", "anchors": ["pyfakefs/fake_filesystem.py:FakeFileWrapper"]}
{"id": "C31", "title": "append mode always appends", "statement": "Every successful write through an append handle ends up, in order, after everything that was in the file when it is flushed, whatever seeks were made and whatever other handles and calls did in between. (Reading through the same handle after a foreign change, and mixing os.write with buffered writes, break this: counterexamples proved.)", "quantifier": "every interleaving", "why_tests_cant": "unbounded interleavings of handles", "anchors": ["pyfakefs/fake_filesystem.py:FakeFileWrapper.flush", "pyfakefs/fake_filesystem.py:FakeFileWrapper.seek"]}
{"id": "C32", "title": "flushed data is visible to every other handle", "statement": "A file object opened for reading always reads the bytes the file has at that moment, whatever was done through other handles or by path; after flush or close through a handle every other open handle of the same file that is not in append mode reads the new contents. (Data not yet flushed through a second writing handle can be lost: counterexample proved.)", "quantifier": "every interleaving of handles", "why_tests_cant": "unbounded interleavings", "anchors": ["pyfakefs/fake_filesystem.py:FakeFileWrapper._flush_related_files", "pyfakefs/fake_filesystem.py:FakeFileWrapper._sync_io"]}
{"id": "C33", "title": "open mode restrictions", "statement": "A handle opened without write permission never changes a file through its methods, os.read, os.write and os.close; one opened write-only never yields data; on POSIX such a call raises io.UnsupportedOperation, or OSError(EBADF) for a raw descriptor and for os.read and os.write; 'r' requires existence, 'x' requires absence, 'w' empties the file, 'a' keeps it. (os.ftruncate ignores the open mode: counterexample proved.)", "quantifier": "every mode string and call sequence", "why_tests_cant": "all call sequences", "anchors": ["pyfakefs/fake_filesystem.py:_OPEN_MODE_MAP", "pyfakefs/fake_filesystem.py:FakeFileOpen.call", "pyfakefs/fake_filesystem.py:FakeFileWrapper.__getattr__"]}
{"id": "C34", "title": "truncate sets size and zero-fills", "statement": "After os.truncate(p,n) (or ftruncate) of a non-empty file the file has size n and reads as the old contents cut or zero-padded to n; used space changes by the size difference. (An empty file keeps empty contents with a non-zero st_size: counterexample proved.)", "quantifier": "every non-empty contents and every n", "why_tests_cant": "all sizes", "anchors": ["pyfakefs/fake_filesystem.py:FakeFile.size", "pyfakefs/fake_filesystem.py:FakeOsModule.truncate"]}
{"id": "C35", "title": "out-of-space writes are atomic", "statement": "A flush or set_contents that raises ENOSPC leaves contents, size and used space of the file as before.", "quantifier": "every state and contents", "why_tests_cant": "every boundary", "anchors": ["pyfakefs/fake_filesystem.py:FakeFile._set_initial_contents", "pyfakefs/fake_filesystem.py:FakeFileWrapper._try_flush"]}
{"id": "C36", "title": "stubbing is undone exactly", "statement": "After any sequence of set (or of smart_set) calls, repeated and overlapping, on attributes in the objects' own namespaces, unset_all (smart_unset_all) restores every attribute to its original value, and a second undo changes nothing. (Inherited attributes, mixed use and smart_set of class methods are not restored: counterexamples proved.)", "quantifier": "every sequence of replacements", "why_tests_cant": "unbounded sequences", "anchors": ["pyfakefs/mox3_stubout.py:StubOutForTesting"]}
{"id": "C37", "title": "pause/resume bracket patching", "statement": "For every well-formed sequence of setUp/pause/resume/tearDown the module bindings are the fake ones exactly when patching is active and the original ones otherwise; pause and resume are idempotent. (setUp called twice breaks this: counterexample proved.)", "quantifier": "every sequence of calls", "why_tests_cant": "unbounded sequences", "anchors": ["pyfakefs/fake_filesystem_unittest.py:Patcher.start_patching", "pyfakefs/fake_filesystem_unittest.py:Patcher.stop_patching"]}
{"id": "C38", "title": "extended attributes form a map", "statement": "setxattr/getxattr/listxattr/removexattr on a file behave as a map from names to values per object; XATTR_CREATE fails exactly on existing, XATTR_REPLACE exactly on missing names, without change.", "quantifier": "every sequence of attribute calls", "why_tests_cant": "unbounded sequences", "anchors": ["pyfakefs/fake_filesystem.py:FakeOsModule.setxattr", "pyfakefs/fake_filesystem.py:FakeOsModule.getxattr"]}
{"id": "C39", "title": "devices and mount points", "statement": "On a case-sensitive POSIX filesystem, each mount point has its own normalised absolute path and device number; only add_mount_point adds mount points and only set_disk_usage changes their limits, whatever else is called; add_mount_point creates the directory with the new number and leaves the device of everything else unchanged; directories, files and symlinks carry the device of the directory they are created in; get_disk_usage(path) is that of the deepest mount point containing the path, if no mount path is a string prefix of it without containing it; a successful rename has its source and destination directories on one device. (get_disk_usage('/foobar') reports a mount at '/foo', mounting an existing path raises EEXIST but registers the mount, renaming a mount point's directory changes its device, and a hard link across devices moves the file: counterexamples proved.)", "quantifier": "every reachable filesystem, every path; for add_mount_point and rename: paths free of symlinks, devices within their limits, directories with a read bit", "why_tests_cant": "all path/mount combinations", "anchors": ["pyfakefs/fake_filesystem.py:FakeFilesystem.add_mount_point", "pyfakefs/fake_filesystem.py:FakeFilesystem._mount_point_for_path", "pyfakefs/fake_filesystem.py:FakeFilesystem.rename"]}
{"id": "C40", "title": "utime and stat times", "statement": "utime(ns=(a,m)) makes stat report exactly a and m; item access is within one second of the nanosecond value in seconds and equal to its floor except in the last 256 ns of a second (counterexample proved there); utime with both arguments raises and changes nothing.", "quantifier": "every filesystem state and path, all integer times; item access: all times from 1970 to 2038 (within one second: to 2116), every rounding of float operations to a nearest double", "why_tests_cant": "all values", "anchors": ["pyfakefs/fake_filesystem.py:FakeFilesystem.utime", "pyfakefs/helpers.py:FakeStatResult"]}
{"id": "C41", "title": "case-insensitive lookup", "statement": "On a case-insensitive POSIX filesystem (macOS), in every state in which no directory holds two names differing only in case, two paths with the same components up to case have the same result of resolving (same object or same error, following links or not), exists, lexists, isfile, isdir, islink, stat and listdir, chmod, utime, chown and truncate do the same through both, and mkdir and create_file of another spelling of something existing fail and change nothing. (A fresh filesystem has no such names, but mkdir in a directory without read permission can make them, and the null device is found under one spelling only: counterexamples proved.)", "quantifier": "every reachable state without two such names, every pair of paths without a component spelled like the last one of the null device", "why_tests_cant": "all case variants", "anchors": ["pyfakefs/fake_filesystem.py:FakeFilesystem._directory_content", "pyfakefs/fake_filesystem.py:FakeFilesystem._original_path", "pyfakefs/fake_filesystem.py:FakeDirectory._normalized_entryname"]}
{"id": "C42", "title": "makedirs", "statement": "makedirs(p, exist_ok=True) on a path without symlinks is idempotent: afterwards p and all its ancestors are directories, existing objects are untouched and a second call changes nothing. (With a relative link in the path directories are made elsewhere: counterexample proved.)", "quantifier": "every state and path", "why_tests_cant": "unbounded depth", "anchors": ["pyfakefs/fake_filesystem.py:FakeFilesystem.makedirs", "pyfakefs/fake_filesystem.py:FakeFilesystem.create_dir"]}
{"id": "C43", "title": "the reported path of a directory leads back to it", "statement": "For every directory in the tree, the path computed from its parents (used for dir_fd, listdir by descriptor, chdir by descriptor) resolves to this directory, unless an ancestor directly below the root is named like a Windows drive (counterexample proved).", "quantifier": "every history (finite sequence of API calls with arbitrary arguments, including failing calls) from a fresh filesystem", "why_tests_cant": "all reachable states", "anchors": ["pyfakefs/fake_filesystem.py:FakeFile.path"]}
{"id": "C44", "title": "pathlib root splitting is lossless", "statement": "splitroot of a POSIX fake path returns an empty drive, a root and a rest such that the path is its leading separators followed by the rest, the rest never starts with a separator, and the root is empty, one separator or (exactly for two leading ones) two. On a Windows filesystem drive, root and rest put together give the path up to the number of separators between them, also for UNC and extended paths.", "quantifier": "every path string, unbounded length and number of components", "why_tests_cant": "all strings", "anchors": ["pyfakefs/fake_pathlib.py:_FakeFlavour._splitroot_posix", "pyfakefs/fake_pathlib.py:_FakeFlavour._splitroot_with_drive"]}
{"id": "C45", "title": "realpath eliminates symlinks", "statement": "On a case-sensitive POSIX filesystem, os.path.realpath of an absolute path ends for every link graph (if the interpreter allows more nested calls than there are symlinks) and returns an absolute path; if resolving the path component by component as POSIX does has a result, this is what it returns, none of its prefixes is a symlink, and it leads to the same object. (For a relative path a loop of symlinks containing '..' can exhaust the interpreter's recursion limit: counterexample proved.)", "quantifier": "every reachable filesystem whose directories have a read bit, every link graph, every absolute path with ordinary names", "why_tests_cant": "all link graphs", "anchors": ["pyfakefs/fake_filesystem.py:FakePathModule.realpath", "pyfakefs/fake_filesystem.py:FakePathModule._joinrealpath"]}
{"id": "C46", "title": "the current directory is always absolute and only changed by chdir", "statement": "After any history getcwd() is an absolute path; it is changed only by a successful chdir, which succeeds only for directories; a failing chdir keeps the old directory. (The path need not be normalised: '/../x' can be reached through a root-level link, counterexample proved.)", "quantifier": "every history (finite sequence of API calls with arbitrary arguments, including failing calls) from a fresh filesystem", "why_tests_cant": "all histories", "anchors": ["pyfakefs/fake_filesystem.py:FakeOsModule.chdir"]}
{"id": "C47", "title": "os.scandir describes every entry faithfully", "statement": "On a case-sensitive POSIX filesystem, os.scandir(d) yields exactly one DirEntry per name in d, in the order of listdir; its path is d joined with the name, is_symlink() tells whether the entry is a symlink, is_dir(follow_symlinks=False) whether it is a directory, is_dir() agrees with os.path.isdir, and stat(follow_symlinks=False) is that of the entry itself. (is_file() is also true for broken symlinks: counterexample proved.)", "quantifier": "every reachable filesystem whose directories have a read bit, every directory path", "why_tests_cant": "all trees, all kinds of entries, all targets of symlinks", "anchors": ["pyfakefs/fake_scandir.py:ScanDirIter", "pyfakefs/fake_scandir.py:DirEntry"]}
{"id": "C48", "title": "Path.resolve follows every symlink", "statement": "On a case-sensitive POSIX filesystem, Path(p).resolve(strict) ends for every link graph (if the interpreter allows more nested calls than twice the number of symlinks). Resolving the components one after the other, from the root or the current directory, as POSIX does has at most one outcome: if it is a location, resolve returns its path, which has no symlink in it and in strict mode leads to an object; if in strict mode a component is missing, resolve raises ENOENT (ENOTDIR below a file); if there is none because of a loop of symlinks, it raises RuntimeError. Without strict, for absolute paths, it returns what os.path.realpath returns.", "quantifier": "every reachable filesystem whose directories have a read bit, every link graph, every path (absolute or relative) with ordinary names", "why_tests_cant": "all graphs of symlinks, all paths", "anchors": ["pyfakefs/fake_pathlib.py:_FakeFlavour._resolve_posix", "pyfakefs/fake_pathlib.py:FakePath.resolve"]}
{"id": "C49", "title": "chown changes exactly the given ids", "statement": "A successful chown(p,uid,gid) makes stat(p) report the given ids (an id given as -1 stays) and nothing else changes: every other object, every other attribute and the resolution of every path are as before; a failing chown changes nothing.", "quantifier": "every filesystem state, every path, all integer ids, with and without following symlinks", "why_tests_cant": "all states, paths and ids", "anchors": ["pyfakefs/fake_filesystem.py:FakeOsModule.chown"]}
{"id": "C50", "title": "owners and time stamps", "statement": "No call but chown changes the owner of an existing object, so two stat results about the same inode agree on it; new objects belong to the calling user and group and carry the current time. As long as the clock does not go back (and utime only sets the current time) no time stamp goes back or lies in the future. Creating, linking, renaming, removing and resizing change no time stamp of an existing object; on POSIX a flush sets modification and change time exactly if the bytes change, a read sets the access time, opening with truncation sets modification and change time.", "quantifier": "every history (finite sequence of API calls with arbitrary arguments, including failing calls), every object; flush, read and open: every state of a POSIX filesystem", "why_tests_cant": "all histories, all objects, all users and clocks", "anchors": ["pyfakefs/fake_filesystem.py:FakeFile.__init__", "pyfakefs/fake_filesystem.py:FakeFile._set_initial_contents", "pyfakefs/fake_filesystem.py:FakeFileWrapper.flush", "pyfakefs/fake_filesystem.py:FakeFileOpen.call"]}
{"id": "C51", "title": "descriptors keep their file", "statement": "stat reports exactly what is stored with the object the path leads to, and fstat of a file just opened reports what is stored with the file the path led to. As long as a descriptor is not closed it stays with its file, whatever else is called (removing or renaming the file, opening and closing others): fstat keeps reporting the same inode and type, and agrees with stat of any path leading to that inode. Closing a file object made by open(fd, closefd=False) leaves the descriptor with the other file objects, with closefd=True closes it; closing a file opened with delete_on_close removes its name and nothing else.", "quantifier": "every reachable filesystem, every descriptor, every sequence of calls in between", "why_tests_cant": "all interleavings of calls between opening and using a descriptor", "anchors": ["pyfakefs/fake_filesystem.py:FakeOsModule.fstat", "pyfakefs/fake_filesystem.py:FakeFileWrapper.close", "pyfakefs/fake_filesystem.py:FakeFilesystem.get_open_file"]}
{"id": "C52", "title": "file I/O never touches the tree", "statement": "Reading, writing, positioning, truncating, flushing and closing (of files not to be deleted on close), successful or failing, change nothing but contents, size and time stamps of files, the used sizes and the table of open files: every directory keeps its entries, every object its name, mode, link count, inode and device number, owner and attributes, no object appears, and every path leads where it led.", "quantifier": "every filesystem state of every configuration, every I/O call with arbitrary arguments", "why_tests_cant": "all states, all arguments, all error exits", "anchors": ["pyfakefs/fake_filesystem.py:FakeFileWrapper.flush", "pyfakefs/fake_filesystem.py:FakeFileWrapper.close", "pyfakefs/fake_filesystem.py:FakeFile._set_initial_contents", "pyfakefs/fake_filesystem.py:FakeOsModule.write"]}
{"id": "C53", "title": "relpath leads from start to path", "statement": "On a POSIX filesystem with '/' as separator, os.path.relpath(path,start) is a relative normalised path such that joining it to start means the same absolute location as path; no relative path with that meaning has fewer components, and it is '.' exactly if both mean the same location; an empty path raises ValueError. (With another separator than the host's, relative arguments containing '..' lead elsewhere: counterexample proved.)", "quantifier": "every pair of path strings and every absolute current directory", "why_tests_cant": "Arbitrary mixtures of '..', '.', repeated separators and relative or absolute arguments; minimality is a statement about all other paths.", "anchors": ["pyfakefs/fake_filesystem.py: FakePathModule.relpath, FakePathModule.__init__ (copied posixpath), getcwd"]}
{"id": "C54", "title": "os.path queries agree with stat", "statement": "For a user who may read everything, whenever stat(p) succeeds isfile, isdir, getsize, getmtime, getatime and getctime report what it reports; for root, whenever stat(p) raises an OSError, isfile and isdir are false and (for paths not ending with a separator) getsize raises the same error and the time queries ENOENT, islink(p) is true exactly if lstat(p) reports a symlink, and on a case-sensitive POSIX filesystem exists(p) holds exactly if stat(p) succeeds (except for the null device). On a POSIX filesystem ismount(p) holds exactly for mount points, however the path is written. (For other users stat can raise ENOENT for an existing file of which another link's directory was removed: counterexample proved.)", "quantifier": "every reachable filesystem state and every path", "why_tests_cant": "The queries take different routes through the resolution code; agreement must hold for every tree, link graph and path spelling.", "anchors": ["pyfakefs/fake_filesystem.py: FakeFilesystem.stat, isfile, isdir, islink, exists, FakePathModule.getsize, getmtime, getatime, getctime, ismount"]}
{"id": "C55", "title": "dir_fd means relative to the open directory", "statement": "On a case-sensitive Linux-like filesystem, a relative path given with dir_fd denotes the location reached from where the open directory is at the time of the call (also after it was renamed), whatever the current directory is; stat, mkdir, remove and rename then do what they do for that absolute path. Absolute paths ignore dir_fd; a descriptor that is not open raises EBADF. (os.symlink applies dir_fd to the target instead of the link: counterexample proved. Directories below a directory named like a Windows drive are excluded, see C43.)", "quantifier": "every reachable filesystem state, open directory descriptor and relative path", "why_tests_cant": "Must hold for every nesting of directories, every spelling with '.' and '..', and every history of renames between opening and use.", "anchors": ["pyfakefs/fake_filesystem.py: FakeOsModule._path_with_dir_fd, FakeFilesystem.get_open_file, FakeFile.path, FakeOsModule.symlink"]}
{"id": "C56", "title": "on Windows read-only and open files cannot be deleted", "statement": "On a Windows filesystem, whatever the history, no call takes the directory entry of a file that is read-only (no owner write bit) or open: removing, renaming or replacing it and deleting the directory tree around it leave the entry; removing the entry from its directory raises EACCES and changes nothing. Only closing a file opened to be deleted on close is excepted.", "quantifier": "every reachable state of a Windows filesystem, every call with every argument, every directory entry", "why_tests_cant": "Must hold for every call that can remove entries (recursive deletion, replace, removedirs, renames of parents) and every history of opens and chmods.", "anchors": ["pyfakefs/fake_filesystem.py: FakeDirectory.remove_entry, FakeFilesystem.has_open_file, FakeFilesystem.remove_object, FakeFilesystem.rename"]}
{"id": "C57", "title": "whole-file reading, writing and touch", "statement": "Path.read_bytes returns exactly the bytes of the file the path leads to and changes nothing but its access time. Path.write_bytes of b on an existing file returns len(b); afterwards the file holds exactly b under every one of its names, and every other file, name and path is as before; it can fail only with EACCES (not writable; no effect) or ENOSPC (no room for b in place of the old contents). Where nothing exists it makes exactly one new name, of a new file holding b. What was written is what is read back. Path.touch sets both times of an existing file to now and nothing else (EEXIST, without effect, if exist_ok is False), and makes a new empty file with exactly the given permission bits where nothing exists.", "quantifier": "every reachable state, every path (through symlinks and hard links) leading to a regular file, every byte string, every device limit, every user, Windows or POSIX; for new files every case-sensitive POSIX configuration", "why_tests_cant": "The bytes, sizes, buffer boundaries, disk limits, links and histories are unbounded.", "anchors": ["pyfakefs/fake_pathlib.py: FakePath.read_bytes, FakePath.write_bytes, FakePath.touch", "pyfakefs/fake_filesystem.py: FakeFileWrapper.write, flush, close, FakeFileOpen.call"]}
{"id": "C58", "title": "Windows drives and normalisation", "statement": "With Windows rules, os.path.splitdrive cuts every path into its drive (a character and a colon, or \\\\host\\share followed by nothing or by an absolute path; empty if the path starts with neither) and the rest, and this cut is unique; os.path.isabs says whether the rest starts with a separator. os.path.normpath keeps the drive, makes the rest canonical, is idempotent, and its result leads to the same place on the same drive from every starting position, for every path that has a drive or no colon.", "quantifier": "every path string over either separator, every drive, every starting drive and directory", "why_tests_cant": "Path strings are unbounded; drives, UNC shares, both separators, '.' and '..' interact.", "anchors": ["pyfakefs/fake_filesystem.py: FakeFilesystem.splitdrive, normpath, normcase", "pyfakefs/fake_filesystem.py: FakePathModule.isabs"]}
{"id": "C59", "title": "joining and absolute Windows paths", "statement": "With Windows rules, joining any number of ordinary paths gives an ordinary path that leads where going along the parts one after the other leads: a part without drive continues on the current drive, a part with the same drive (compared without case on a case-insensitive filesystem) continues there, a part with another drive starts at that drive's current directory, a network share at its root. Joining with an absolute path, or an absolute path with one on its drive, gives an absolute path. os.path.abspath of an ordinary path leads where the path leads from the working directory, and is absolute unless the path is relative to another drive.", "quantifier": "every list of ordinary paths (colon only in the drive, the rest not starting with two separators) over either separator, every current directory of every drive, every working directory on a drive", "why_tests_cant": "Paths, numbers of parts and current directories are unbounded.", "anchors": ["pyfakefs/fake_filesystem.py: FakeFilesystem.joinpaths, _join_paths_with_drive_support", "pyfakefs/fake_filesystem.py: FakePathModule.abspath"]}
{"id": "C60", "title": "splitting Windows paths", "statement": "With Windows rules, os.path.split loses nothing but repeated separators: the path is the head, some separators and the tail; the tail contains no separator; the head does not end with a separator unless it is the root directory or the root of a drive; a drive letter stays in the head.", "quantifier": "every path string over either separator with no colon other than that of a drive letter", "why_tests_cant": "Path strings are unbounded.", "anchors": ["pyfakefs/fake_filesystem.py: FakeFilesystem.splitpath, _starts_with_drive_letter"]}
{"id": "C61", "title": "a path ending with a separator names only directories", "statement": "On Linux, for a path p not ending with a separator, os.stat(p + '/') is os.stat(p) if p leads to a directory and fails with ENOTDIR otherwise, and fails as os.stat(p) does if that fails; os.path.getsize likewise; os.path.isfile(p + '/') is False and os.path.isdir(p + '/') is os.path.isdir(p); os.path.exists(p + '/') is False if p is a regular file; os.listdir does not distinguish the two; os.remove(p + '/') always fails and changes nothing (EISDIR for a directory, ENOTDIR for a file, a link or a broken link); open(p + '/') of a regular file fails and changes nothing; os.lstat(p + '/') of a link fails as following the link fails, or with ENOTDIR if it leads to something other than a directory; os.mknod(p + '/') and os.link(old, p + '/') make nothing (EEXIST or ENOENT).", "quantifier": "every reachable case-sensitive Linux filesystem and every path (remove and open: every name in a directory reached without links)", "why_tests_cant": "Paths, links and filesystems are unbounded.", "anchors": ["pyfakefs/fake_filesystem.py: FakeFilesystem.raise_for_filepath_ending_with_separator, is_filepath_ending_with_separator, exists, stat, remove, isfile, isdir, listdir", "pyfakefs/fake_filesystem.py: FakeFileOpen.call, _init_file_object", "pyfakefs/fake_filesystem.py: FakePathModule.getsize"]}
{"id": "C62", "title": "creating never replaces an existing name", "statement": "If the directory already has an entry of the given name - also if it is a symlink leading nowhere - then os.mkdir, os.makedirs, os.mknod, os.symlink, os.link, create_file, create_dir and open(..., 'x') fail with FileExistsError and change nothing at all.", "quantifier": "every reachable case-sensitive POSIX filesystem, every entry of every directory reached without links, all other arguments", "why_tests_cant": "Filesystems, names and arguments are unbounded.", "anchors": ["pyfakefs/fake_filesystem.py: FakeFilesystem.makedir, makedirs, create_dir, create_file_internally, create_symlink, create_link", "pyfakefs/fake_filesystem.py: FakeOsModule.mknod", "pyfakefs/fake_filesystem.py: FakeFileOpen.call"]}
{"id": "C63", "title": "recursive removal takes exactly one subtree", "statement": "On a case-sensitive POSIX filesystem, fs.remove_object(path): if the path names an entry and every directory may be written (always for root), the call succeeds and the entry with everything below it is gone, however deep and wide the tree: no location at or below it leads anywhere, the directories there are empty, every other name stays, files keep their contents and those that had names in the removed part have as link count the number of names left. If there is no such entry nothing changes. Whatever happens - also when it fails half way because a directory below may not be written - no name outside the subtree changes and no name is added.", "quantifier": "every reachable case-sensitive POSIX filesystem, every path", "why_tests_cant": "Trees of any depth, width and link structure; the loop runs while it modifies the dictionary it reads.", "anchors": ["pyfakefs/fake_filesystem.py: FakeFilesystem.remove_object", "pyfakefs/fake_filesystem.py: FakeDirectory.remove_entry"]}
{"id": "C64", "title": "a mapped real file is a snapshot taken at the first look", "statement": "A real file mapped with add_real_file (it must exist) gives, at every look, the contents the real file had when the fake file was first opened or read, however the real file changes before and afterwards (a look while the real file is missing fails); after a write through the fake file it gives what was written. Its stat size, mode, owner and times are those of the real file at the time of mapping until it is written or resized. Mapped read-only it has no write or execute permission and otherwise the real mode.", "quantifier": "every real file, every history of changes of the real filesystem, looks and writes", "why_tests_cant": "The real filesystem is an environment that can change between any two calls in any way; a test tries one history.", "anchors": ["pyfakefs/fake_filesystem.py: FakeFilesystem.add_real_file", "pyfakefs/fake_filesystem.py: FakeFileFromRealFile", "pyfakefs/helpers.py: FakeStatResult.set_from_stat_result"]}
{"id": "C65", "title": "a lazily mapped directory looks like the real one", "statement": "For a directory mapped with add_real_directory, every sequence of lookups and listings, in any order, gives what the real tree has: the same names, kinds, contents, link targets and modes (files mapped read-only without write and execute permission), although each directory is only loaded when it is first looked into. With lazy_read=False exactly the files and links of the real tree are there at their paths, and the directories that have one below.", "quantifier": "every real directory tree, every sequence of looks, lazy or eager", "why_tests_cant": "Any tree and any order of lookups, each of which loads another part.", "anchors": ["pyfakefs/fake_filesystem.py: FakeFilesystem.add_real_directory", "pyfakefs/fake_filesystem.py: FakeDirectoryFromRealDirectory.contents", "pyfakefs/fake_filesystem.py: FakeFilesystem.add_real_symlink"]}
{"id": "C66", "title": "I/O on one file leaves every other file alone", "statement": "Reading, writing, seeking, telling, truncating and flushing through a file object or a descriptor, whether it succeeds or fails, changes no file other than the one it is open on: not its contents, size, time stamps, links or attributes, and not the buffer or position of any file object open on another file. So in every interleaving of such calls on any number of open files each file and its file objects are affected only by the calls on that file.", "quantifier": "every state, every open file, every sequence of I/O calls, every platform", "why_tests_cant": "Any number of open handles on any number of files in any interleaving; flushing loops over all open files.", "anchors": ["pyfakefs/fake_filesystem.py: FakeFileWrapper.flush", "pyfakefs/fake_filesystem.py: FakeFileWrapper._flush_related_files", "pyfakefs/fake_filesystem.py: FakeFileWrapper._adapt_size_for_related_files", "pyfakefs/fake_filesystem.py: FakeOsModule.write"]}
{"id": "C67", "title": "a descriptor behaves like a byte array with a cursor", "statement": "After os.open of a file without O_APPEND on a POSIX filesystem, every sequence of successful os.read and os.write calls on the descriptor, mixed with any I/O on other files, returns what a byte array with a cursor returns, and the file itself always holds exactly that array: nothing stays in a buffer, and writes in the middle never cut off the rest. os.sendfile between two such descriptors of different files copies exactly count bytes from the offset of the source to the cursor of the destination, leaves the source's cursor where it was (or moves it, for offset None) and touches no other file. os.fsync and os.fdatasync change nothing and succeed exactly for descriptors of open files other than 0 to 2.", "quantifier": "every reachable POSIX filesystem, every file, every sequence of calls, offset and count", "why_tests_cant": "All sequences of reads and writes at all positions and sizes around the buffer size, in any interleaving with other files.", "anchors": ["pyfakefs/fake_filesystem.py: FakeOsModule.read", "pyfakefs/fake_filesystem.py: FakeOsModule.write", "pyfakefs/fake_filesystem.py: FakeOsModule.open", "pyfakefs/fake_filesystem.py: FakeOsModule.sendfile", "pyfakefs/fake_filesystem.py: FakeOsModule.fsync"]}
{"id": "C68", "title": "reading and writing through one append handle", "statement": "After open(p, 'ab') or open(p, 'ab+'), every sequence of successful read, write, tell, flush and seek calls (seek to a position given from the start or from the end of the file) on the file object returns what a byte array returns in which every write goes to the end and moves the read position there, with the read position at the end of the file to begin with; and closing the file leaves exactly that array in it.", "quantifier": "every reachable filesystem on every platform, every file, buffer size and sequence of calls", "why_tests_cant": "All interleavings of reads, writes and seeks, with writes of all sizes around the buffer size; the read position is kept apart from the stream's own position.", "anchors": ["pyfakefs/fake_filesystem.py: FakeFileWrapper.__init__", "pyfakefs/fake_filesystem.py: FakeFileWrapper.seek", "pyfakefs/fake_filesystem.py: FakeFileWrapper.tell", "pyfakefs/fake_filesystem.py: FakeFileWrapper._read_wrapper", "pyfakefs/fake_filesystem.py: FakeFileWrapper._other_wrapper"]}
{"id": "C69", "title": "comparing, copying and indexing stat results", "statement": "Two stat results are equal exactly if their ten public attributes are (so equality is an equivalence relation, and two stat calls return equal results iff they report the same record). Items 0 to 9 exist and no others; they are the attributes, with the times in whole seconds, and equal results have equal items whatever stat_float_times says. A copy is equal to the original and keeps reporting times in the form used when it was made. Taking over a real file's stat keeps inode, device and link count and takes over everything else. st_file_attributes and st_reparse_tag exist only on Windows (where, for all permission bits, directories are reported as devices and regular files as symlink reparse points).", "quantifier": "all stat results, all field values, all float roundings", "why_tests_cant": "All combinations of modes, times and settings.", "anchors": ["pyfakefs/helpers.py: FakeStatResult.__eq__", "pyfakefs/helpers.py: FakeStatResult.__getitem__", "pyfakefs/helpers.py: FakeStatResult.copy", "pyfakefs/helpers.py: FakeStatResult.set_from_stat_result", "pyfakefs/helpers.py: FakeStatResult.st_file_attributes"]}
{"id": "C70", "title": "lines of a binary file", "statement": "readline, readlines, readinto, iteration and writelines, mixed with read, write, seek, tell, truncate and flush in any order on a binary file object opened without append mode, see and change the same byte array with a cursor: readline and next return the bytes up to and including the next newline (with a limit, a beginning of them), readlines all remaining lines, readinto as many bytes as fit, and writelines has exactly the effect of one write of everything; after closing, the file holds the array. (Not so in append mode, where iteration starts at the end whatever seek said; and iterating works on a closed file object.)", "quantifier": "all files, all contents, all sequences of calls that succeed (writes as in C30), all buffer sizes", "why_tests_cant": "Infinitely many contents, positions of newlines and orders of calls.", "anchors": ["pyfakefs/fake_filesystem.py: FakeFileWrapper.__getattr__", "pyfakefs/fake_filesystem.py: FakeFileWrapper.__next__", "pyfakefs/fake_filesystem.py: FakeFileWrapper.__iter__", "pyfakefs/fake_filesystem.py: FakeFileWrapper._write_wrapper", "pyfakefs/fake_filesystem.py: FakeFileWrapper._read_wrappers"]}
{"id": "C71", "title": "text files", "statement": "Path.write_text on an existing file stores exactly the encoding of the text and returns the number of its characters, or fails as write_bytes does; if the text cannot be encoded it raises ValueError and leaves the file empty and everything else unchanged. Path.read_text returns the decoded contents with CR LF and CR replaced by LF, or raises ValueError, and changes only the access time. A text without CR is read back as it was written, through any name of the file. A file object opened for writing text and given several texts holds their encodings one after the other after closing; with line buffering (buffering=1) the file holds everything written so far as soon as a write of a text with a newline has returned.", "quantifier": "all files and names, all texts, all encodings without state, all sequences of writes, all buffer fills", "why_tests_cant": "All texts, encodings and orders of writes relative to the buffer size.", "anchors": ["pyfakefs/fake_pathlib.py: FakePath.read_text", "pyfakefs/fake_pathlib.py: FakePath.write_text", "pyfakefs/fake_filesystem.py: FakeFileWrapper._write_wrapper", "pyfakefs/helpers.py: TextBufferIO"]}
{"id": "C72", "title": "what Patcher replaces", "statement": "Patcher replaces exactly these attributes of loaded modules that are not excluded: attributes under whatever name that are a module with a fake (os, io, pathlib, shutil, ...), attributes named after a faked class (Path) that are a class of the right module, and attributes under whatever name that are a file system function (os.path.exists, os.stat, open, ...); each by its own fake. In a module whose name is the beginning of a name to be skipped nothing is replaced but references to modules that have a wrapper of the real one. In every well-formed sequence of setUp, pause, resume and tearDown, while patching is active every such attribute is the fake belonging to the current fake filesystem, and all other attributes are what they were; while it is not active all attributes are what they were. With the cache, over a series of tests, the attributes replaced are those of all modules loaded at one of the setUp calls, provided those modules do not change.", "quantifier": "all sets of loaded modules with all attributes under all names, all settings, all sequences of setUp/pause/resume/tearDown and of tests", "why_tests_cant": "All possible programs with all ways to import and alias file system names.", "anchors": ["pyfakefs/fake_filesystem_unittest.py: Patcher._find_modules", "pyfakefs/fake_filesystem_unittest.py: Patcher._is_fs_module", "pyfakefs/fake_filesystem_unittest.py: Patcher._is_fs_function", "pyfakefs/fake_filesystem_unittest.py: Patcher.patch_modules", "pyfakefs/fake_filesystem_unittest.py: Patcher.patch_functions", "pyfakefs/fake_filesystem_unittest.py: Patcher.clear_cache"]}
{"id": "C73", "title": "sys.modules during and after a test", "statement": "Whatever has been imported, reloaded or removed from sys.modules in a test, import of a faked module gives the fake. After tearDown each faked module that was loaded before is the real one again; a module not loaded before, neither faked nor in modules_to_reload, is no longer in sys.modules; a module loaded before that the test neither reloads nor removes is there, the same object. (A fake whose name was not in sys.modules, in practice 'Path', stays there; a module reloaded in the test is dropped.)", "quantifier": "all contents of sys.modules, all sequences of imports, reloads and deletions in a test", "why_tests_cant": "All sets of modules and all orders of imports, reloads and deletions.", "anchors": ["pyfakefs/fake_filesystem_unittest.py: DynamicPatcher.__init__", "pyfakefs/fake_filesystem_unittest.py: DynamicPatcher.cleanup", "pyfakefs/fake_filesystem_unittest.py: DynamicPatcher.needs_patch", "pyfakefs/fake_filesystem_unittest.py: DynamicPatcher.find_spec", "pyfakefs/fake_filesystem_unittest.py: DynamicPatcher.load_module"]}
{"id": "C74", "title": "Every history of calls is answered as a reference file system answers it", "statement": "Let a new fake Linux filesystem of unlimited size be used by root. For every sequence of the calls os.mkdir, os.rmdir, os.remove, os.rename, os.link, Path.write_bytes, Path.read_bytes, os.listdir, os.path.exists, os.path.isfile, os.path.isdir and os.path.getsize with absolute paths, the results (values, errno of the exceptions) are exactly those of an abstract file system: a map from locations to directories and files with an identity and bytes, in which mkdir adds one entry, rename moves a subtree, link gives a file a second location, write_bytes changes the bytes at all locations of a file, and a failed call changes nothing. In particular no call raises anything but the OSError the abstract file system prescribes.", "quantifier": "all sequences of calls of any length, all locations of any depth (outside /dev, names not starting with '..'), all bytes, all umasks that keep the owner's read permission, all recursion limits", "why_tests_cant": "A test runs one sequence; equivalence with the abstract file system needs an invariant that every call of every sequence preserves.", "anchors": ["pyfakefs/fake_filesystem.py: FakeFilesystem.makedir", "pyfakefs/fake_filesystem.py: FakeFilesystem.rmdir", "pyfakefs/fake_filesystem.py: FakeFilesystem.remove", "pyfakefs/fake_filesystem.py: FakeFilesystem.rename", "pyfakefs/fake_filesystem.py: FakeFilesystem.link", "pyfakefs/fake_filesystem.py: FakeFilesystem.listdir", "pyfakefs/fake_filesystem.py: FakeFileOpen.call", "pyfakefs/fake_pathlib.py: FakePath.write_bytes", "pyfakefs/fake_pathlib.py: FakePath.read_bytes"]}
{"id": "C75", "title": "Calls whose result depends on the emulated operating system", "statement": "os.fsync never changes anything; it fails with EINVAL for 0, 1, 2, with the error of the descriptor lookup for a number that is not open, on Windows with EBADF for a descriptor not opened for writing, and succeeds otherwise. os.fdatasync raises AttributeError on Windows and macOS and os.sendfile on Windows, changing nothing; on macOS os.sendfile to something other than a socket fails and changes nothing. os.readlink of a symlink with a trailing separator (case-sensitive POSIX) fails with EINVAL if the link leads to a directory; if it leads nowhere it fails with ELOOP if its target does (macOS: returns the path of the link) and with ENOENT otherwise. On Linux os.symlink at an existing symlink given with a trailing separator fails and changes nothing: ENOENT if the link with the separator does not exist but the new target does, EEXIST otherwise. The drive letters of Windows pathlib paths are exactly the 52 ASCII letters.", "quantifier": "all filesystem states (reachable states for the link part), all descriptors, all offsets and counts, all locations of links of any depth, all link targets, all characters", "why_tests_cant": "The error depends on the operating system, the kind of descriptor and where links lead; tests sample a few combinations.", "anchors": ["pyfakefs/fake_filesystem.py: FakeOsModule.fsync", "pyfakefs/fake_filesystem.py: FakeOsModule.fdatasync", "pyfakefs/fake_filesystem.py: FakeOsModule.sendfile", "pyfakefs/fake_filesystem.py: FakeFilesystem.readlink", "pyfakefs/fake_filesystem.py: FakeFilesystem.create_symlink", "pyfakefs/fake_pathlib.py: _FakeFlavour"]}
{"id": "C76", "title": "Every history of calls on names and file descriptors is answered as a reference file system answers it", "statement": "Let a new fake Linux filesystem of unlimited size be used by root. For every sequence of the calls of C74 mixed with os.open, os.read, os.write, os.close and os.fstat(fd).st_size, the results (values, errno of the exceptions) are exactly those of an abstract file system with descriptors, in which names lead to directories or numbered files, each numbered file has bytes, and each open descriptor has a file, a position and the access it was opened for: os.open returns the smallest free descriptor >= 3, creates, refuses or truncates as its flags say; os.read returns the bytes at the position and moves it; os.write puts the bytes at the position (at the end for O_APPEND) and moves it; every descriptor of a file sees what was written through any other descriptor or by name; a file removed or replaced by rename keeps its bytes for the descriptors that are open and never comes back under a name; closing frees exactly that descriptor; no call on names changes a descriptor; refused calls change nothing.", "quantifier": "all sequences of calls of any length, any number of open descriptors, all locations of any depth (outside /dev), all bytes, all flags with O_EXCL only with O_CREAT and O_APPEND only with O_WRONLY, all modes with owner read permission, all umasks that keep it", "why_tests_cant": "A test runs one interleaving; that descriptors, names and buffers agree after every interleaving needs an invariant over all handles that every call preserves.", "anchors": ["pyfakefs/fake_filesystem.py: FakeOsModule.open", "pyfakefs/fake_filesystem.py: FakeOsModule.read", "pyfakefs/fake_filesystem.py: FakeOsModule.write", "pyfakefs/fake_filesystem.py: FakeOsModule.close", "pyfakefs/fake_filesystem.py: FakeOsModule.fstat", "pyfakefs/fake_filesystem.py: FakeFileWrapper", "pyfakefs/fake_filesystem.py: FakeFileOpen.call", "pyfakefs/fake_filesystem.py: FakeFilesystem.rename", "pyfakefs/fake_filesystem.py: FakeFilesystem.remove"]}
{"id": "C77", "title": "A path through links to directories means what the path without them means", "statement": "On a case-sensitive POSIX fake filesystem, when two absolute paths name the same entry of one directory, reaching that directory through different (chains of) symbolic links, every call gives the same through both paths: the same answers and the same errors from os.stat, os.lstat, os.readlink, os.listdir, os.access, os.path.exists/lexists/islink/isdir, os.getxattr and os.listxattr; and the same result or error and the same resulting filesystem from os.chmod, os.chown, os.utime, os.truncate, os.chdir, os.setxattr, os.removexattr, os.mkdir, os.rmdir, os.remove, os.mknod, os.symlink, create_file (without missing directories), open, os.open, os.link (at either end) and os.rename to a name not in use (at either end).", "quantifier": "every reachable state, every pair of link-chains to one directory, every name in it (existing or not, itself a link or not), and every argument of each call", "why_tests_cant": "The number of ways to reach a directory through links is unbounded, and each call has its own code to look up the path or its parent directory; a test compares a few calls through a single link.", "anchors": ["pyfakefs/fake_filesystem.py: FakeFilesystem.resolve_path, _resolve_components, _follow_link", "pyfakefs/fake_filesystem.py: FakeFilesystem.resolve, lresolve, exists, add_object, remove_object", "pyfakefs/fake_filesystem.py: FakeFilesystem.makedir, rename, link, create_symlink, create_file_internally", "pyfakefs/fake_filesystem.py: FakeFileOpen.call, FakeOsModule.open"]}
{"id": "C78", "title": "What Windows, macOS and Linux refuse, and with which error", "statement": "The calls fail as on the emulated system, and change nothing when they do. On Windows os.rename onto anything that exists fails with EEXIST; os.replace fails with EACCES onto a directory or link, with EEXIST for a directory onto a file, and removes a file in the way of a file first. Renaming into a non-directory: EACCES on Windows, ENOTDIR elsewhere; renaming \"x/\" to itself: EINVAL/ENOTDIR. os.remove of a directory: EACCES/EPERM/EISDIR (Windows/macOS/Linux); of \"link/\" to a directory: EACCES/EPERM/ENOTDIR; of a broken \"link/\": EINVAL/ENOENT/ENOTDIR. os.rmdir(\".\"): EACCES on Windows, EINVAL elsewhere; of a link to a directory: followed on Windows, ENOTDIR on Linux, and on macOS ENOTDIR unless the path ends with a separator. Hard link to a directory: EACCES on Windows, EPERM elsewhere; from \"file/\": EINVAL/ENOTDIR. Adding below a non-directory: ENOENT on Windows, ENOTDIR elsewhere, also for os.makedirs. open() of a directory: EACCES on Windows, EISDIR elsewhere; of a new path with a trailing separator: EINVAL/ENOENT/EISDIR; exclusive open of a broken link: EEXIST except on Windows, where the link counts as absent. os.open of a directory outside Windows: allowed for reading, EISDIR for writing and on Linux for O_CREAT. os.stat(\"file/\"): EINVAL on Windows, ENOTDIR elsewhere. mkdir of what exists: EEXIST, but EACCES for the Windows root, and on macOS mkdir/makedirs of \"broken-link/\" replace the link. A directory without the write bit refuses new entries to users other than root, except on Windows. An empty read or write on a raw handle not opened for it succeeds on Windows and fails with EBADF elsewhere. os.mknod fails with TypeError on Windows, and the extended-attribute calls exist only on Linux.", "quantifier": "every state of the filesystem, every path and object meeting the stated lookups, every flag, mode and buffer size", "why_tests_cant": "The errors depend on combinations of the platform, the kind of each object, links and trailing separators; the platform tests fix one small tree per case and do not show that nothing changed.", "anchors": ["pyfakefs/fake_filesystem.py: FakeFilesystem.rename, _rename_to_existing_path, _handle_rename_error_for_dir_or_link", "pyfakefs/fake_filesystem.py: FakeFilesystem.remove, rmdir, makedir, makedirs, create_link, add_object, stat, raise_for_filepath_ending_with_separator", "pyfakefs/fake_filesystem.py: FakeFileOpen.call, _init_file_object, FakeOsModule.open, FakeDirectory.add_entry", "pyfakefs/fake_filesystem.py: FakeFileWrapper._read_error, _write_error"]}
{"id": "C79", "title": "The size of a directory is the sum over the paths below it", "statement": "The size of every directory of the tree (the amount by which moving or removing it changes the used space) equals the sum of the sizes of the files and links below it, with one summand for each path below the directory that leads to a file or link. The paths below a directory and the objects there determine the sum; a file with several hard links below the directory counts once per link.", "quantifier": "every reachable filesystem state (any history of calls, any platform configuration), every directory in it, every depth and number of entries", "why_tests_cant": "The size is a recursion over an unbounded tree, whose termination and double counting depend on the shape every history can produce.", "anchors": ["pyfakefs/fake_filesystem.py: FakeDirectory.size, FakeFile.size", "pyfakefs/fake_filesystem.py: FakeDirectory.remove_entry, FakeFile.add_entry"]}
{"id": "C80", "title": "Modes and file times on an emulated Windows", "statement": "On an emulated Windows os.chmod only decides whether a file can be written: it sets the three write permissions if the argument has the user write permission and clears them otherwise, changes no other mode bit, no other object and no contents, and sets the ctime. Reading through a file object opened for reading changes no time stamp and nothing else about any file. Flushing stores the bytes but touches no time stamp of any file; the file object remembers whether it has changed the bytes of the file. Closing it sets the modification time to the current time exactly if it has changed the bytes, leaves access time and ctime, and changes no other object.", "quantifier": "every filesystem state on a Windows configuration, every path, mode and file object (in and out of append mode), every outcome that is a success", "why_tests_cant": "Whether the time changes at close depends on all the writes and flushes before it, on every file object on the same file and on the bytes, not on a single call.", "anchors": ["pyfakefs/fake_filesystem.py: FakeFilesystem.chmod", "pyfakefs/fake_filesystem.py: FakeFileWrapper.flush, close, _read_wrappers, _changed"]}
{"id": "C81", "title": "Renaming to another spelling on a case-insensitive filesystem", "statement": "On a case-insensitive filesystem (macOS, Windows) renaming something to another spelling of its own name succeeds, whichever spelling it is called by, if the user may move it: afterwards the directory lists it under the new spelling instead of the old one (unless they are the same), every spelling of the name finds it, and no other object, no contents, no mode, no descriptor, no device usage and no time stamp changes.", "quantifier": "every filesystem state on a case-insensitive configuration, every directory and name that has one spelling in it, every pair of spellings, with and without force_replace", "why_tests_cant": "The fold of the names, the depth and links of the path and the history before the call are unbounded, and \"nothing else changes\" speaks about every other object.", "anchors": ["pyfakefs/fake_filesystem.py: FakeFilesystem.rename, _rename_to_existing_path, _rename_case_insensitive", "pyfakefs/fake_filesystem.py: FakeDirectory.remove_entry, add_entry"]}
{"id": "C82", "title": "Drives on an emulated Windows", "statement": "On an emulated Windows the first use of a path on a drive that is not there, such as D:\\x, mounts the drive: the mount table gets one further entry, with a device number no other mount point has, without a size limit and with nothing used; the root directory gets an empty directory of that name on that device; nothing else changes. Paths that an existing mount point covers, and all paths on other systems, mount nothing; once added, the drive is not mounted again.", "quantifier": "every filesystem state, every path and drive name (letters with a colon, and every other drive that normalizes to itself)", "why_tests_cant": "The path, the drive and the mount table before the call are unbounded.", "anchors": ["pyfakefs/fake_filesystem.py: FakeFilesystem._auto_mount_drive_if_needed, _mount_point_for_path, add_mount_point", "pyfakefs/fake_filesystem.py: FakeFilesystem.create_dir, create_file_internally"]}
{"id": "C83", "title": "Files with a size but without contents", "statement": "create_file(path, st_size=n) either fails without a trace or makes exactly one new file of size n without contents, and charges its device with n bytes. Reading, writing and truncating it through a file object, and os.read, raise FakeLargeFileIoException and change no file. Opening it without truncation changes no file; opening it with truncation (\"w\") makes it an ordinary empty file and gives its space back. os.truncate sets the size, charges the difference and leaves it without contents, or fails with ENOSPC and changes nothing. Exceptions, proved by example: opening for update and closing again empties it; closing one opened for appending raises TypeError and leaves it open; a file made by os.mknod counts as one and cannot be read, and os.mknod of a relative name puts it into the root directory.", "quantifier": "every reachable filesystem state, every path, size, mode, umask, open mode, buffer size and file object", "why_tests_cant": "The history before the call, the path, the size and the free space of the device are unbounded, and \"changes no file\" speaks about every object.", "anchors": ["pyfakefs/fake_filesystem.py: FakeFile.set_large_file_size, is_large_file, size", "pyfakefs/fake_filesystem.py: FakeFilesystem.create_file, create_file_internally, truncate", "pyfakefs/fake_filesystem.py: FakeFileWrapper.__getattr__, _truncate_wrapper, FakeFileOpen.call, FakeOsModule.read, mknod"]}
{"id": "C84", "title": "os.walk on every platform, with and without following links", "statement": "os.walk(top, topdown, followlinks=...) yields exactly one item for each way to reach a directory from top by the names os.listdir gives and os.path.isdir accepts (through links only with followlinks=True), provided it can be listed: its path, the names of directories (and links to directories) and the other names in the order of os.listdir, before (topdown) or after the items of its subdirectories, which follow each other in that order. A directory that cannot be listed yields nothing. With followlinks=True the walk ends without an error whatever the links are, circles included.", "quantifier": "yielded items: every filesystem state, platform, path and option; ending: every reachable case-sensitive POSIX filesystem whose directories may be read, every directory path, every link graph", "why_tests_cant": "The depth and shape of the tree and the graph of links are unbounded; that the walk ends in every circle of links cannot be seen from examples.", "anchors": ["pyfakefs/fake_scandir.py: walk, _classify_directory_contents", "pyfakefs/fake_filesystem.py: FakeFilesystem.listdir, isdir, islink, resolve_path"]}
{"id": "C85", "title": "How a path is written does not matter", "statement": "A path may be written relative to the current directory, with \".\" components and with repeated separators. Every call (stat, lstat, readlink, listdir, access, exists, isfile, isdir, islink, xattr calls, chmod, chown, utime, truncate, chdir, remove, rmdir, removedirs, rename and link with it as source or destination, mkdir, makedirs, mknod, symlink, create_file, create_dir, open, os.open, read/write_bytes, read/write_text) returns for it the same result or error, and leaves the same filesystem, as for the absolute path of the place it means. The exception is os.mknod of a bare name, which makes the node in the root directory; os.mkdir of a bare name needs the current directory to exist still.", "quantifier": "every reachable case-sensitive POSIX filesystem, every current directory, every way of writing every path (without \"..\" components and trailing separators), every other argument", "why_tests_cant": "There are infinitely many ways to write a path, from every current directory, in every state; each call normalises paths in its own way (absnormpath, splitpath, normpath, resolve_path), so agreement must be shown for each call and all inputs.", "anchors": ["pyfakefs/fake_filesystem.py: FakeFilesystem.absnormpath, splitpath, normpath, resolve_path, get_object_from_normpath, lresolve, makedir, makedirs, add_object, create_file_internally, create_symlink, create_link, rename, remove_object", "pyfakefs/fake_filesystem.py: FakeOsModule.open, mknod, FakeFileOpen.call"]}
{"id": "C86", "title": "Programs with a current directory: refinement of the reference file system with relative paths", "statement": "A new fake Linux filesystem used by root answers a program that changes its current directory and writes its paths relative to it, absolutely, with \".\" components or with repeated separators, exactly as a small reference file system (a tree of locations and a current location) does: mkdir, makedirs, rmdir, removedirs, remove, rename, replace, link, write/read_bytes, create_dir, create_file, remove_object, listdir, exists, lexists, isfile, isdir, getsize, samefile, chdir, getcwd. chdir goes only to an existing directory and otherwise changes nothing; getcwd gives the location last gone to; relative paths mean what is below it at the time of the call.", "quantifier": "every sequence of calls of every length, with every way to write every path (without \"..\" components, trailing separators and /dev), every content, every umask that keeps the owner's read permission", "why_tests_cant": "The histories, the current directories and the ways to write the paths are unbounded, and what a relative path means depends on the whole history; the current directory may meanwhile be removed, renamed or become a file.", "anchors": ["pyfakefs/fake_filesystem.py: FakeFilesystem, FakeOsModule.chdir, getcwd, mkdir, makedirs, rmdir, removedirs, remove, rename, replace, link, listdir", "pyfakefs/fake_filesystem.py: FakePathModule.exists, lexists, isfile, isdir, getsize, samefile", "pyfakefs/fake_pathlib.py: read_bytes, write_bytes"]}
{"id": "C87", "title": "Programs with descriptors and a current directory: refinement of the reference file system", "statement": "A new fake Linux filesystem used by root answers a program that opens files by paths written relative to its current directory (or absolutely, with \".\", \"..\" or repeated separators), reads, writes, asks, truncates (os.truncate, os.ftruncate), synchronises (os.fsync, os.fdatasync) and closes descriptors, asks with os.access (F_OK, W_OK), changes its current directory, and makes the calls of C86 in between, exactly as a small reference file system with descriptors and a current location does: a relative path means what is below the current directory at the time of the call; a descriptor keeps referring to its file whatever happens to the current directory and to the names; os.chdir and os.getcwd touch no file and no descriptor; nothing that fails changes anything.", "quantifier": "every sequence of calls of every length on paths and descriptors, with every way to write every path (without trailing separators and /dev; where a path goes up, what it goes up from exists), every content, flags and offsets, every umask that keeps the owner's read permission", "why_tests_cant": "The interleavings of opening, renaming, removing and changing the directory are unbounded, and what a path or a descriptor means depends on the whole history.", "anchors": ["pyfakefs/fake_filesystem.py: FakeFilesystem, FakeOsModule.open, read, write, close, fstat, ftruncate, truncate, access, fsync, fdatasync, chdir, getcwd, mkdir, makedirs, rmdir, removedirs, remove, rename, replace, link, listdir", "pyfakefs/fake_filesystem.py: FakeFileOpen.call, FakeFileWrapper"]}
{"id": "C88", "title": "Modes, owners, times and the umask do not show in what root reads and writes", "statement": "A new fake Linux filesystem used by root answers a program that calls os.chmod, os.chown, os.utime, os.setxattr, os.removexattr and os.umask as it likes between the calls of C87 exactly as a reference file system does that has no modes, no owners, no times and no extended attributes: os.umask answers the umask set before; the other five, with or without follow_symlinks, succeed exactly when the path means something, fail with ENOENT or ENOTDIR otherwise, and change no name, no content, no descriptor and no current directory, so that every later call of C87 has the result it has without them; os.path.islink is False everywhere and os.readlink fails, with EINVAL where something is, for no call here makes a symbolic link; os.access with R_OK is True wherever something is.", "quantifier": "every sequence of calls of every length, every way to write every path (as in C87), every mode and umask that keeps the owner's read permission, every owner, group, times and attribute", "why_tests_cant": "The claim is that a call changes nothing any later call can see, over unboundedly many histories and continuations.", "anchors": ["pyfakefs/fake_filesystem.py: FakeFilesystem.chmod, utime, FakeOsModule.chmod, chown, utime, umask, setxattr, removexattr, readlink, access", "pyfakefs/fake_filesystem.py: FakeFilesystem.readlink, islink, lresolve", "pyfakefs/fake_filesystem.py: FakeFileOpen.call"]}
