# Formal model of pyfakefs in Lean 4 — design

The theorems are about a Lean model of the pyfakefs sources in /repo (`pyfakefs/fake_filesystem.py`, `helpers.py`,
`fake_scandir.py`, `fake_pathlib.py`, `mox3_stubout.py`, `fake_filesystem_unittest.py`).  The code is not executed; every
definition of the model cites the file and lines it models and says where it simplifies.

## Trusted base

* The Lean 4.33.0 kernel.  Axioms: at most `propext`, `Classical.choice`, `Quot.sound` (table at the end).  No own axioms, no
  compiled-code tactics (`decide +kernel` is evaluated by the kernel).
* The reading of the Python sources: that the definitions in the modules marked *model* below say what the cited lines do.
  This is the part nobody checks mechanically.  The seeded edits in `seeded/LOG.jsonl` show which theorems notice which
  changes of the model.
* Assumptions on the host: CPython >= 3.8 on Linux (`os.sep == '/'`, `os.altsep is None`, `_MAX_LINK_DEPTH == 40`).
* Standard library pieces, modelled by their documented behaviour: `str` methods, `dict` (insertion-ordered association list),
  `heapq` (pop returns the minimum), `io.BytesIO` (write pads with zeros, truncate only shrinks), `time.time()` (a clock value in the
  state, constant during a call, changed only by the environment), `str.lower` and text encodings (abstract functions of the
  configuration), IEEE double rounding (`Dbl.lean`, for `utime(times=…)` and float time stamps), the copied `posixpath` for `relpath`.

## What is modelled

* **Path functions** (`Path`): normpath, absnormpath, normcase, splitpath, splitdrive, joinpaths, path components, for every
  configuration (separator, alternative separator, Windows, MacOS, case).  Theorems about Windows are marked; most are for POSIX.
* **State** (`State`, `Prim`): a heap of objects (hard links share objects), mount points with used sizes, the table of open files with
  its heap of free descriptors, file wrappers, current directory, umask, user.  Operations are functions
  `FS → Except Err α × FS`: what was changed before an exception stays changed, as in Python.
* **Lookup** (`Lookup`): resolve_path, resolve, lresolve, get_object, exists, lexists with symlinks, permissions, case folding,
  recursion limit (`limit` in the state; exhaustion raises RecursionError).
* **Operations** (`Ops`): create_dir, create_file, create_symlink, link, mkdir, makedirs, mknod, remove, rmdir, removedirs, rename,
  remove_object, chmod, chown, utime, truncate, xattrs, chdir, umask, add_mount_point (with auto-mounting of Windows drives),
  set_disk_usage, get_disk_usage, stat, access, readlink, listdir, samefile.
* **Open files** (`FileIO`): open (path or descriptor, all binary modes), os.open/close/read/write, ftruncate, fstat, and the
  methods of FakeFileWrapper: read, write, seek, tell, truncate, flush, close, with buffering, append mode, synchronisation between
  handles, delete-on-close, closefd.
* **Further**: os.walk, scandir (`Walk`), realpath (`Realpath`), relpath (`Relpath`), getsize … ismount and dir_fd (`OsPath`), pathlib splitroot
  and resolve (`Pathlib`, `PathResolve`), StubOutForTesting and Patcher pause/resume (`Stub`).

## What is not modelled

Text mode and encodings of file contents (only binary handles), files backed by real files (only in the separate model Verif/Real.lean), pipes, `bytes` paths, O_TMPFILE,
fcntl, module reloading and the import machinery of Patcher, `shutil` (it runs on top of the modelled calls), threads (pyfakefs has no
locking; calls are atomic in the model), `chown` with `None`, iteration order of generators interleaved with changes (os.walk and scandir
are consumed without changes in between).

## How properties are proved

* Invariants (`Inv`): preserved by the primitives, lifted through every call with a predicate closed under the monad operations
  (`Pres*`), then by induction over arbitrary histories (`Hist`: `Reachable s` = reached from a fresh filesystem of any configuration by
  any list of calls, failing ones included).
* Effects: on case-sensitive POSIX filesystems lookups are walks through directory entries (`LookupTree`, an iff); calls are shown to add,
  remove or move exactly one entry (`Eff*`), and the independent function `Spec.walk` says what that means for all other paths.
* Frames: relations kept by the elementary steps are kept by every call (`Frame`, `FrameO`, `FrameIO`, `Meta`, `IoTree`, `MountFrame`).
* File handles: refinement to a byte array with a cursor (`Props/Bytes`), epochs recording every change of contents (`Epoch`, `Track`).
* Specifications that do not mention the model: `SpecPath`, `Spec.*` definitions at the head of the `Props` files.
* Beside the theorems, `example`s show concrete reachable states meeting the hypotheses (mostly on the small tree of `Demo`).

## Modules (lean/Verif)

| module | about |
|---|---|
| `Agree` | States no path lookup can tell apart |
| `Alone` | Calls through other handles leave the data of a handle in append mode alone |
| `CaseFold` | Paths that differ only in the case of their components |
| `CaseLookup` | Lookups on a case-insensitive filesystem |
| `Dbl` | Double precision numbers |
| `Demo` | A small concrete filesystem used to show that hypotheses can be met |
| `DemoFacts` | The demo filesystem meets the hypotheses used by the effect theorems |
| `Device` | A filesystem with a single device |
| `DeviceIO` | Open files on one device |
| `DeviceMore` | A filesystem with a single device: removing, renaming and the other operations on paths |
| `DeviceOps` | A filesystem with a single device: the operations on paths |
| `Eff` | Effects on the tree: one name appears, one name disappears |
| `EffCreate` | Creating files: exact effects |
| `EffData` | Changing the contents and the size of a file: exact effects |
| `EffDirs` | Effect of the component loop of `create_dir` and of `makedirs` |
| `EffLink` | Hard links: exact effects |
| `EffOps` | Adding an object to a directory: exact effects |
| `EffRemove` | Removing an entry: exact effects |
| `EffRename` | Renaming: exact effects |
| `EffTree` | Recursive removal: exact effects |
| `Epoch` | Every change of the data of a file is recorded in its epoch |
| `Fd` | The table of open files: frames of the file operations and an invariant of all histories |
| `FdInv` | The invariant of the table of open files |
| `FdSys` | The fake filesystem with descriptors: what a state stands for, and calls that leave the other handles alone |
| `FileIO` | File descriptors and binary file handles |
| `Flags` | What is fixed when a file is opened stays fixed |
| `Frame` | Frames: what a call leaves alone |
| `FrameIO` | Frames for open files and for histories |
| `FrameO` | Frames for relations that look at the objects |
| `Held` | Calls that change names and directories leave the data of all files alone |
| `Hist` | Histories: arbitrary sequences of API calls from a fresh filesystem |
| `InTree` | Which files are in a tree |
| `Inv` | The structural invariant of the object graph and its preservation by the primitives |
| `InvAttach` | Attaching and detaching directory entries |
| `InvPrim` | The primitives preserve the invariant |
| `InvRemove` | Removing directory entries |
| `IoFlush` | What flushing a file handle does |
| `IoTree` | Reading and writing leave the tree alone |
| `Isolate` | I/O on one file leaves every other file and its handles alone |
| `Joined` | Paths made by joining a name to a path |
| `Keeps` | Paths that keep their meaning when an entry is removed |
| `Lines` | Lines and text: `readline`, `readlines`, `readinto`, `writelines`, iteration, `Path.read_text`, `Path.write_text` |
| `Lookup` | Path lookup |
| `LookupInv` | Lookups return existing objects; the ancestor test is exact |
| `LookupTree` | Lookup on case-sensitive POSIX filesystems is a walk through directory entries |
| `Meta` | Frames for owners and time stamps |
| `MountFrame` | The table of mount points changes only when mount points are added or limits are set |
| `Mounts` | Disk usage queries |
| `Okp` | Partial correctness: what holds if a call succeeds |
| `Ops` | Operations of FakeFilesystem and FakeOsModule that change the tree |
| `OsPath` | More of `os.path`, and paths relative to a directory descriptor |
| `Patch` | What `Patcher` replaces: `_find_modules`, `patch_modules`, `patch_functions`, and `sys.modules` |
| `Path` | Pure path functions of `FakeFilesystem` |
| `PathFacts` | Paths in states satisfying the invariant |
| `PathLemmas` | lemmas about the path functions |
| `PathResolve` | `Path.resolve` of the fake pathlib on POSIX |
| `Pathlib` | The pathlib flavour of the fake filesystem |
| `Plain` | Paths without `..`: lookups are walks |
| `Pres` | Compositional preservation of the invariant |
| `PresIO` | Descriptor and handle operations preserve the invariant |
| `PresOps` | The operations preserve the invariant |
| `PresRename` | `rename` preserves the invariant |
| `Prim` | Primitive operations on FakeFile and FakeDirectory objects |
| `Py` | Python string primitives on `List Char` |
| `ReadOnly` | Calls on a file object that was opened without write access |
| `Readers` | File objects that only read see the current contents |
| `Real` | Files and directories mapped from the real filesystem |
| `Realpath` | `os.path.realpath` |
| `Refine` | The fake filesystem as an implementation of the reference file system: lookups |
| `Relpath` | `os.path.relpath` |
| `RenameMoved` | Renaming: where everything is afterwards |
| `Sane` | Histories with sane modes |
| `Sendfile` | `os.sendfile`, `os.fsync`, `os.fdatasync` |
| `Slash` | The paths `Path.resolve` works on |
| `SpecFd` | The reference file system with file descriptors |
| `SpecFdText` | The reference file system with descriptors, a current directory and written paths |
| `SpecLife` | The reference file system, its user's umask, and the attributes it does not have |
| `SpecPath` | Independent specification of path meaning |
| `SpecRef` | A reference file system |
| `SpecText` | The reference file system with a current directory and written paths |
| `SpecWin` | Independent specification of Windows paths |
| `StatRes` | Stat results |
| `State` | State of the fake filesystem and the monad of its operations |
| `Stub` | `mox3_stubout.StubOutForTesting` and the patching of `Patcher` |
| `Text` | Text files: writing text, line buffering, `Path.read_text`, `Path.write_text` |
| `Track` | No file object knows a later state of its file than the present one |
| `Walk` | Scanning directories |
| `WholeFile` | `Path.read_bytes`, `Path.write_bytes`, `Path.touch` |
| `WinPath` | Windows paths: lemmas on drives |
| `Wp` | Reasoning about operations: weakest preconditions |
| `Props/Alias` | C77: a path through links to directories means the same as the path without them |
| `Props/AliasOpen` | C77, continued: os.open, and the paths stay synonyms when something new is made |
| `Props/AliasOps` | C77, continued: every call |
| `Props/Append` | Append mode (C31) |
| `Props/AppendRead` | C68: reading and writing through one append handle |
| `Props/Atomic` | C35: out of space; C22: failed calls |
| `Props/Attr` | Attributes: chmod, access, chown, utime, extended attributes (C26, C27, C38, C40) |
| `Props/Bytes` | C30: a binary file object is a byte array with a cursor |
| `Props/Case` | C41: names that differ only in case |
| `Props/Chown` | C49: chown |
| `Props/Create` | C13, C14, C18, C19 (creation): exactly one new name |
| `Props/Data` | C34, C35: truncate; replacing contents is atomic |
| `Props/Descr` | C51, C52: descriptors keep their file, and using them does not touch the tree |
| `Props/DirSize` | C79: the size of a directory |
| `Props/Dirs` | C42: makedirs |
| `Props/Drives` | C82: drives on an emulated Windows |
| `Props/Excl` | C62: creating never replaces an existing name |
| `Props/Failed` | C22: a failing call changes nothing |
| `Props/Fd` | C29: file descriptors |
| `Props/FdBytes` | C66, C67: files do not interfere; descriptors as byte arrays |
| `Props/Follow` | C20: what one followed link stands for |
| `Props/Hardlink` | C18: hard links share one file |
| `Props/Large` | C83: files with a size but without contents |
| `Props/LeadsBack` | C43 continued: the reported path of a directory leads back to it |
| `Props/Lines` | C70: lines |
| `Props/Links` | C19: symbolic links are followed to their target, and only where they should be |
| `Props/Lookup` | C20, C21, C23, C43, C46: path resolution |
| `Props/Modes` | C33: open modes |
| `Props/MountTable` | C39: which calls change the table of mount points |
| `Props/Mounts` | C39: devices and mount points |
| `Props/Owner` | C50: owners and time stamps |
| `Props/Patch` | C72, C73: what is faked, and what is left behind |
| `Props/Pathlib` | C44: splitting off drive and root in pathlib |
| `Props/Paths` | Path functions: C01-C07 |
| `Props/Perm` | C25: directory permissions |
| `Props/Platform` | C75: calls whose result depends on the emulated operating system |
| `Props/PlatformLinks` | C78 continued: a link with a trailing separator, renamed to itself |
| `Props/PlatformMore` | C78, continued: links, trailing separators and renames by platform; C80: file times and modes on Windows |
| `Props/PlatformOpen` | C78: what is refused on Windows, on macOS and on Linux, and with which error: open, stat, mkdir, symlink; file times |
| `Props/PlatformOps` | C78: what is refused on Windows, on macOS and on Linux, and with which error |
| `Props/Query` | C54: the questions of `os.path` agree with `stat`;  C55: paths relative to a directory descriptor |
| `Props/Real` | C64, C65: files and directories mapped from the real filesystem |
| `Props/Realpath` | C45: realpath |
| `Props/Refine` | C74: the fake filesystem refines the reference file system |
| `Props/RefineFd` | The reference file system with descriptors: reading, writing, closing |
| `Props/RefineFdText` | C87: programs with descriptors, a current directory and written paths |
| `Props/RefineIO` | C74, continued: `write_bytes` and `read_bytes` |
| `Props/RefineLife` | C88: attributes and the umask do not matter to what root's programs see |
| `Props/RefineMore` | C74, continued: `makedirs`, `create_dir`, `create_file`, `remove_object`, `samefile`, `lexists` |
| `Props/RefineOpen` | `os.open` in the reference file system with descriptors (C76) |
| `Props/RefinePrune` | C74, continued: `os.removedirs` |
| `Props/RefineRun` | C74, continued: whole histories |
| `Props/RefineText` | C86: histories with relative paths, `os.chdir` and `os.getcwd` |
| `Props/RefineTree` | C76, continued: calls on names while descriptors are open |
| `Props/Refused` | C33, continued: the exception of a call in the wrong direction |
| `Props/Relpath` | C53: `os.path.relpath` |
| `Props/Remove` | C15, C16: exactly one name disappears |
| `Props/RemoveTree` | C63: recursive removal |
| `Props/Rename` | C17: rename moves a subtree |
| `Props/Resolve` | C48: `Path.resolve` |
| `Props/Scandir` | C47: os.scandir |
| `Props/Space` | C12, C13, continued: exactly when `create_file` succeeds |
| `Props/Spelling` | C81: changing the spelling of a name on a case-insensitive filesystem |
| `Props/StatRes` | C69: comparing stat results |
| `Props/Stub` | Stubbing is undone exactly (C36); pause and resume bracket patching (C37) |
| `Props/Text` | C71: text files |
| `Props/Times` | Times (C40) and ownership |
| `Props/Trail` | C61: a path ending with a separator names only directories |
| `Props/TrailMore` | C61, continued: lstat, mknod and link of paths with a trailing separator |
| `Props/Tree` | C08, C09, C10, C12, C43, C46: the object graph after any history |
| `Props/Umask` | C28: the umask |
| `Props/Usage` | C11: the used disk space is the size of what is stored |
| `Props/Visible` | C32: what other file objects of the same file see |
| `Props/Walk` | C24: os.walk |
| `Props/WalkLinks` | C84: os.walk on every platform, with and without following links |
| `Props/WholeFile` | C57: reading and writing whole files |
| `Props/WinJoin` | C59: joining Windows paths, absolute Windows paths; C60: splitting them |
| `Props/WinPaths` | C58: Windows paths: drives and normalisation |
| `Props/WinRemove` | C56: on a Windows filesystem read-only or open files keep their directory entry |
| `Props/WinSplit` | C60: splitting Windows paths |
| `Props/Written` | C85: how a path is written does not matter |
| `Props/WrittenMake` | C85, continued: creating |
| `Props/WrittenOps` | C85, continued: every call |
| `Props/WrittenThm` | C85: the theorems |
| `Props/Xattr` | Extended attributes form a map (C38) |

## Behaviour of the code found on the way

Where a claim in its natural form is false of the code, a counterexample is proved (named `…_counterexample` or listed in the note).

* Disk usage: `_set_initial_contents` subtracts the old size twice, so flushing changes of a non-empty file drifts (C11); writing an unlinked
  open file is charged and never released (C11); hard links across devices are charged to one and released on the other (C11, C39); `set_disk_usage`
  may set a limit below the used size if there was none (C12); an ENOSPC in `add_entry` leaves the entry attached but uncharged.
* Mount points: `add_mount_point` of an existing path raises EEXIST after registering the mount; renaming a mount point changes its device;
  path prefixes are compared as strings (C39).
* Rename: the destination is removed before the EXDEV and the permission checks; renaming into a directory without write permission loses
  the object (C17, C22, C35).
* link() renames the object before it can fail; `link('/dev/null', …)` renames the null device (C22).
* create_dir resolves a relative link in the middle of the path against the current directory (C42).
* chdir and resolve_path give '/../x' through a root-level link with too many '..' (C21, C46); names like 'c:' in the root are taken for drives (C43).
* lexists misses broken links in unreadable directories; os.walk then follows symlinks there (C23, C24).
* realpath of a relative path with a '..' link loop raises RecursionError (C45); DirEntry.is_file() is True for broken links (C47).
* Descriptors: negative numbers alias open files (C29); ftruncate ignores the open mode (C33); os.open with a mode ignores the umask (C28).
* Handles: buffered overwrites cut off the tail in some cases, an enlarging truncate moves the cursor (C30); unflushed data is lost when another
  handle flushes (C32); 'a+' reading after a foreign extension duplicates data, os.write on a file object's descriptor drops buffered append data (C31);
  seek relative to the current position of an append handle is taken relative to the end (C68).
* setxattr raises ENODATA and EEXIST the wrong way round (C38); item access of stat results is one second late in the last 256 ns (C40).
* StubOutForTesting: inherited attributes and class methods are not restored (C36); Patcher.setUp twice breaks pause (C37).
* Case-insensitive: two names differing only in case can arise; '/DEV/NULL' is not the null device (C41).
* relpath with a separator other than the host's (C53); stat as non-root asks the directory of the last link (C54); os.symlink applies dir_fd to the
  target (C55).
* mkdir with file-type bits in the mode makes a directory object that is not S_ISDIR, which `remove` deletes recursively (excluded by `Genuine`).
* Windows paths: normpath of a path without drive that contains a colon can produce a drive (C58); joining `\` and `:x`, or `\\a` and `b`, invents
  a drive (C59); os.path.split("c:a:b") drops ":b" (C60); any character before a colon counts as a drive letter.
* Mapped real files (C64): `st_size` is from mapping time, the contents from the first look, so they may disagree; contents already read
  cannot be read while the real file is missing (`byte_contents` asks for its access time); if the first look fails, later ones give `None`;
  `os.truncate` of an unread file changes only `st_size`; writing to a mapped file does not update its times (`set_contents` returns `None`);
  read-only is not enforced for root; an ENOSPC in `add_real_file` leaves the file attached but uncharged.
* `add_real_directory(lazy_read=False)` omits directories without files and links below and gives the others default modes (C65).
* Stat results: `st_file_attributes` of a regular file has REPARSE_POINT (S_IFLNK shares the S_IFREG bit), that of a directory DEVICE.
* Iterating over a file object bypasses the wrappers: it works on a closed file object and, in append mode, starts at the end of the file (C70);
  writelines of an iterator calls the stream's writelines twice when the buffer overflows, so that the data is lost the second time.
* Path.write_text of a text that cannot be encoded leaves the file empty (as CPython does, C71).
* Patcher (C72, C73): a module whose name is the beginning of a name to skip ("g", "o", "path") is skipped itself (`sn.startswith(module.__name__)`), and
  submodules of a package to be skipped are not; `from pathlib import PurePath as Path` makes setUp fail with KeyError; `from pathlib import Path as P` is
  not faked; an attribute added to a module already in the cache is not faked in later tests; `sys.modules['Path']` stays the fake after
  tearDown; a module reloaded in a test is missing from `sys.modules` afterwards; `needs_patch` compares a type with a module and is therefore always true.
* `readlink` with a trailing separator (C75): `_is_circular_link` looks the target up from the current directory, so a relative self-link elsewhere gives
  ENOENT instead of ELOOP; a link to a regular file is read although POSIX prescribes ENOTDIR.
* A path through a relative link in another directory (C77): rename onto an existing target and makedirs look the target up with `get_object`/`create_dir`,
  which take the link's text from the current directory: ENOENT, or the wrong directory.
* Platforms (C78): open(directory, "w") fails with EISDIR on a Windows filesystem too (the truncation is refused before EACCES is reached); a write-protected
  directory of a Windows filesystem accepts new entries; os.mknod on Windows raises TypeError.
* Files without contents (C83): opening one for update and closing it empties it; closing one opened for appending raises TypeError and leaves it open;
  os.mknod makes such a file, which cannot be read; os.mknod of a relative name adds it to the root directory.
* Smaller ones: non-strict `Path.resolve()` of a relative link circle on Windows does not terminate; `truncate('/dev/null', n)` sets its size; an `os.open`
  whose final chmod fails leaves the handle open, and `os.open` of an existing file chmods it; `Path.touch` ignores the umask; `getmtime` and the like turn
  every OSError into ENOENT; mkdir/rename/link two levels below a regular file raise ENOENT instead of ENOTDIR; mkdir/remove/rename/truncate update no times
  of existing objects; macOS rename("link/", nonempty directory) replaces the directory.
* Paths with ".." (C85): where the text before a "/.." does not exist, lookups fail with ENOENT or False, while os.remove, rename, makedirs,
  create_file and the like, which only normalise the path, act on the place it means; the test of os.mkdir's parent cuts the path at its first
  "/..", so os.mkdir("/../z") raises ENOENT, and `_valid_relative_path` also looks at what stands before a name like "..foo".
* Descriptors (C87): os.access(p, F_OK) below a regular file raises ENOTDIR instead of returning False; os.ftruncate works through descriptors that are
  open for reading only; os.truncate of a directory raises AttributeError.
* create_file by a user who may write but not search the parent reports EACCES where the device is also full, and leaves the empty file;
  lstat("dirlink/") describes the link itself; exists("fifo/") is True; write(b"") after a read truncates a file opened with buffering=0;
  os.open(dir, O_CREAT|O_EXCL) gives EISDIR.
* Still smaller: `absnormpath` of a rooted Windows path without a drive does not take the drive of the current directory; os.read or os.write on the
  descriptor of a file object opened with `open` sets `raw_io` on it for good, so what is written through the file object afterwards is not
  flushed by its close() and is lost; os.mkdir of a bare name in a removed current directory whose path leads through a file gives
  ENOTDIR, and the current directory is a path that does not follow renames (C86).

## Properties, theorems and what limits them

Full statements are in properties.jsonl; `_counterexample` theorems show where the code does not satisfy the unrestricted claim.

* **C01 normpath is canonical and idempotent** (proved): `normpath_canonical`, `normpath_abs_iff`, `normpath_fixed_iff`, `normpath_idempotent`, `windows_normpath_not_idempotent`. Windows semantics excluded; a counterexample to idempotence there is proved.
* **C02 normpath preserves lexical meaning** (proved): `normpath_meaning`, `normpath_eq_iff_same_location`. 
* **C03 absnormpath is absolute, canonical and anchored at the cwd** (proved): `absnormpath_canonical`, `absnormpath_absolute`, `absnormpath_meaning`, `absnormpath_idempotent`. The empty path denotes the root in this code, stated in absnormpath_meaning.
* **C04 join semantics** (proved): `join_one`, `join_fold`, `join_restart`, `join_assoc`, `join_meaning`, `normpath_join_meaning`. 
* **C05 split/join round trip** (proved): `split_lossless`, `split_tail_no_sep`, `split_head_no_trailing_sep`, `split_join_meaning`. 
* **C06 splitdrive is lossless** (proved): `splitdrive_lossless`, `splitdrive_posix`, `splitdrive_drive_shape`. 
* **C07 component decomposition round trip** (proved): `components_of_absPath`, `path_of_components`, `components_roundtrip`, `components_unique`. 
* **C08 inode numbers identify objects** (proved): `inode_identifies_object`, `inode_identifies_stat`, `samefile_iff`, `inode_stable`. All configurations.
* **C09 the directory graph is a tree rooted at /** (proved): `directory_one_path`, `directory_one_parent`, `directory_not_below_itself`, `no_cycles_at_all`. no_cycles_at_all (objects outside the tree included) for case-sensitive POSIX; the others for all configurations.
* **C10 st_nlink counts names** (proved): `nlink_counts_names`, `nlink_directory`. Case-sensitive POSIX filesystems.
* **C11 used disk space is the sum of the file sizes** (proved): `usage_is_stored`, `linked_iff_named`, `one_device`, `usage_rewrite_counterexample`, `usage_unlinked_counterexample`, `usage_devices_counterexample`. One device, case-sensitive POSIX; contents written only to named files that are still empty (os.write: at most the buffer size). Outside these the claim is false of the code (counterexamples proved).
* **C12 the disk quota is never exceeded** (proved): `quota_step`, `quota_history`, `quota_setDiskUsage`, `quota_setDiskUsage_counterexample`, `createFile_full`, `writeBytes_existing`. All calls except set_disk_usage; ENOSPC for create_file (createFile_full: nothing is left behind) and Path.write_bytes; for set_disk_usage on a limited device proved separately, for one without limit refuted.
* **C13 create_file makes exactly one new name** (proved): `createFile_effect`, `createFile_outcome`. Case-sensitive POSIX; parent exists (or create_missing_dirs is not needed); the user may remove entries of the parent (otherwise the clean-up after ENOSPC is refused, see DESIGN).
* **C14 mkdir makes exactly one new empty directory** (proved): `mkdir_effect`, `mkdir_outcome`. Case-sensitive Linux-like filesystem with no device over its limit; the error table as root on link-free paths.
* **C15 unlink removes exactly one name** (proved): `remove_effect`, `remove_outcome`. Case-sensitive Linux-like filesystem; mode bits agree with the object kind (Genuine).
* **C16 rmdir removes only empty directories** (proved): `rmdir_effect`, `rmdir_outcome`. Case-sensitive Linux-like filesystem; directories readable (see DESIGN for the counterexample without).
* **C17 rename moves a subtree** (proved): `rename_effect`, `rename_paths`, `rename_outcome`, `rename_same`, `rename_exdev_counterexample`, `rename_lost_counterexample`. Case-sensitive Linux-like filesystems with one device, for a user who may remove the entries; with several devices or without permission on the target a failing rename loses data (counterexamples proved).
* **C18 hard links share one file** (proved): `link_effect`, `contents_shared`. Case-sensitive Linux-like filesystem; a failing link may still set the name attribute of the object (stated).
* **C19 symlinks store and follow their target** (proved): `symlink_effect`, `symlink_followed`, `readlink_symlink`. Following is stated for paths whose resolved components are ordinary names; ELOOP is the only other outcome.
* **C20 path resolution always terminates** (proved): `resolveComps_spec`, `firstLink_location`, `resolve_loop_eloop`, `resolve_terminates`, `resolve_object`. Case-sensitive POSIX; termination is given the interpreter recursion limit is not smaller than the number of .. components.
* **C21 a resolved path contains no symlink and is stable** (proved): `resolvePath_no_symlink`, `resolvePath_stable`, `resolvePath_not_canonical`. Canonical form is not claimed: it is false of the code (counterexample proved).
* **C22 failed operations change nothing** (proved): `failed_call`, `flush_atomic`, `write_atomic`, `rename_exdev_counterexample`, `rename_lost_counterexample`, `createFile_overfull_counterexample`, `createFile_cleanup_counterexample`, `link_name_counterexample`. Sixteen calls; case-sensitive Linux-like filesystems with no device over its limit, for a user who may remove the entries involved, rename within one device. Outside these hypotheses it is false of the code (counterexamples proved).
* **C23 listdir reports exactly the entries** (proved): `listdir_entries`, `listdir_lexists`, `listdir_lexists_counterexample`. lexists agreement needs the read bit on the directory (counterexample otherwise).
* **C24 os.walk visits every directory exactly once** (proved): `osWalk_spec`, `reported_dirs`, `osWalk_no_oserror`, `osWalk_unlisted`, `osWalk_unreadable_counterexample`. The filesystem does not change while the generator runs; names not starting with two dots; directories have a read bit (counterexample otherwise).
* **C25 directory permissions are enforced** (proved): `directory_protected`, `directory_frozen`, `mkdir_denied`, `remove_denied`, `root_not_refused`, `mkdir_outcome`, `remove_outcome`, `rmdir_outcome`. Unprivileged users: every operation of the model. Root: mkdir/remove/rmdir never refused on filesystems whose directories the model can read; lresolve raises EACCES for an unreadable directory even as root (finding in DESIGN).
* **C26 chmod changes exactly the permission bits** (proved): `chmod_type`, `chmod_perm`, `chmod_effect`. Modes are natural numbers.
* **C27 access agrees with the permission bits** (proved): `access_spec`. 
* **C28 umask applies to every created object** (proved): `umask_effect`, `umask_returns`, `mkdir_mode`, `makedirs_mode`, `open_mode`, `mknod_mode`, `osOpen_mode_counterexample`. Case-sensitive POSIX; os.open with an explicit mode ignores the mask (counterexample proved).
* **C29 file descriptors are lowest-free and unambiguous** (proved): `open_lowest`, `osOpen_lowest`, `std_kept`, `fd_unambiguous`, `fd_shared_only_by_fdopen`, `closed_stays_closed`, `bad_fd`, `close_frees`, `negative_fd_counterexample`. Non-negative descriptor numbers; negative ones alias (counterexample proved).
* **C30 a binary file handle behaves like a byte array with a cursor** (proved): `io_step`, `io_bytes`, `file_is_byteArray`, `buffered_overwrite_counterexample`, `truncate_cursor_counterexample`. Successful calls on an update handle; writes that reach the end of the file, exceed the buffer or end within its first bufsize bytes, truncations not beyond the cursor: outside these the claim is false of the code (counterexamples proved).
* **C31 append mode always appends** (proved): `append_mode`, `append_fd`, `append_read_counterexample`, `append_mixed_counterexample`. File objects: successful write/seek/tell/flush/close, all other calls arbitrary; descriptors: successful os.write. Reading through the same a+ handle after a foreign change, and mixing os.write with buffered writes, break the claim (counterexamples proved).
* **C32 flushed data is visible to every other handle** (proved): `reader_current`, `flush_visible`, `close_visible`, `unflushed_lost_counterexample`. Readers: any history of any calls. Flush/close: any reachable state, other handles in any mode except append. Data not yet flushed through another writing handle can be lost (counterexample proved).
* **C33 open mode restrictions** (proved): `mode_meaning`, `open_existing`, `open_missing`, `open_new`, `readonly_never_changes`, `osReadonly_never_changes`, `writeonly_never_reads`, `osWriteonly_never_reads`, `read_refused`, `write_refused`, `truncate_refused`, `osRead_refused`, `osWrite_refused`, `ftruncate_readonly_counterexample`. Calls through the file object and os.read/os.write/os.close; os.ftruncate ignores the open mode (counterexample proved).
* **C34 truncate sets size and zero-fills** (proved): `truncate_effect`, `ftruncate_effect`, `truncate_empty_counterexample`. Non-empty files; for empty files the claim is false of the code (counterexample proved).
* **C35 out-of-space writes are atomic** (proved): `setContents_atomic`, `setContents_enospc`, `truncate_atomic`, `flush_atomic`, `write_atomic`. 
* **C36 stubbing is undone exactly** (proved): `Stub.set_unset_all`, `Stub.smart_set_unset_all`, `Stub.set_inherited_counterexample`, `Stub.set_mixed_counterexample`, `Stub.smart_set_method_counterexample`. Attributes in the namespace of the object itself; counterexamples for inherited attributes, mixed use and smart_set of classmethods.
* **C37 pause/resume bracket patching** (proved): `Stub.patch_brackets`, `Stub.pause_resume_idem`, `Stub.setUp_twice_counterexample`. Well-formed call sequences; counterexample for setUp called twice.
* **C38 extended attributes form a map** (proved): `xattr_step`, `xattr_map`, `xattr_read`, `setxattr_errno`. The errno values of the two flags are swapped with respect to Linux, stated as they are.
* **C39 devices and mount points** (proved): `mounts_distinct`, `mounts_step`, `setDiskUsage_mounts`, `addMountPoint_mounts`, `mounts_canon`, `addMountPoint_effect`, `diskUsage_deepest`, `mkdir_effect`, `createFile_effect`, `symlink_effect`, `rename_one_device`, `rename_new_device`, `diskUsage_prefix_counterexample`, `addMountPoint_exists_counterexample`, `rename_mount_counterexample`, `link_device_counterexample`. Case-sensitive POSIX filesystems. Disk usage: paths of which no mount path is a mere string prefix; rename: when it does not replace one hard link by another of the same object. False of the code otherwise (counterexamples proved).
* **C40 utime and stat times** (proved): `utime_cases`, `utime_ns`, `utime_bad_args`, `toNs_int`, `item_near`, `item_floor`, `item_counterexample`. For every rounding of float operations to a nearest double.
* **C41 case-insensitive lookup** (proved): `case_resolve`, `case_exists`, `case_calls`, `case_no_second`, `init_noTwins`, `twins_reachable`, `null_spelling`. Case-insensitive POSIX-style configuration; entry names contain no separator; neither the current directory nor a link target mentions the last component of the null device path. That mkdir can create two names differing only in case is proved as a counterexample.
* **C42 makedirs** (proved): `makedirs_effect`, `makedirs_dirs`, `makedirs_again`, `makedirs_idempotent`, `makedirs_link_counterexample`. Case-sensitive Linux-like filesystems; the effect for every path, the idempotence for paths without links (for a relative link in the path the claim is false of the code: counterexample proved).
* **C43 the reported path of a directory leads back to it** (proved): `objPath_names`, `objPath_leads_back`, `objPath_drive_counterexample`. Case-sensitive Linux configuration. Except for directories named like a Windows drive (counterexample) and, for the lookup, names starting with two dots and the null device; objects of directory type are directories (no mkdir with file-type bits).
* **C44 pathlib root splitting is lossless** (proved): `splitroot_posix`, `splitroot_windows`, `splitroot_extended_counterexample`. POSIX: every path; Windows: every path except those starting with \\?\\\ (counterexample proved).
* **C45 realpath eliminates symlinks** (proved): `realpath_spec`, `realpath_resolves`, `realpath_relative_counterexample`. Absolute paths; names and link targets without components starting with two dots other than .. itself; directories have a read bit.
* **C46 the current directory is always absolute and only changed by chdir** (proved): `cwd_absolute`, `chdir_effect`, `cwd_only_chdir`, `cwd_not_canonical`. "canonical" is false (counterexample); the rest is proved.
* **C47 os.scandir describes every entry faithfully** (proved): `scandir_spec`, `scandir_broken_counterexample`. String paths; the whole iterator consumed while the filesystem does not change.
* **C48 Path.resolve follows every symlink** (proved): `pathResolve_spec`, `pathResolve_result`, `pathResolve_realpath`. The string form of the path is given (pathlib does the parsing); names and link targets without components starting with two dots other than .. itself; directories have a read bit; the current directory contains no symlink (and exists, in strict mode).
* **C49 chown changes exactly the given ids** (proved): `chown_effect`. String paths, integer ids (None as an id outside the model).
* **C50 owners and time stamps** (proved): `owner_step`, `owner_history`, `times_forward`, `times_past`, `tree_call_times`, `flush_stamps`, `read_stamps`, `open_existing`, `chmod_effect`. The clock is constant during a call. flush_stamps: files with contents in memory other than /dev/null.
* **C51 descriptors keep their file** (proved): `stat_fields`, `fstat_open`, `descriptor_step`, `fstat_same_file`, `close_closefd`, `close_deletes`. close_deletes: case-sensitive POSIX configuration, the file is still found under the name and directory stored with it, by a path without links.
* **C52 file I/O never touches the tree** (proved): `io_keeps_tree`, `io_keeps_paths`. Paths: unless the contents of a symlink object were written (symlinks are never opened by path resolution).
* **C53 relpath leads from start to path** (proved): `relpath_meaning`, `relpath_empty`, `relpath_separator_counterexample`. POSIX configuration with the host separator; the copied posixpath.relpath of a POSIX host is part of the model.
* **C54 os.path queries agree with stat** (proved): `queries_stat`, `queries_fail`, `islink_lstat`, `readlink_islink`, `exists_stat`, `ismount_iff`, `stat_parent_counterexample`. exists_stat: all entries of directory type are directories (no mkdir with file-type bits).
* **C55 dir_fd means relative to the open directory** (proved): `dirFd_ignored`, `dirFd_closed`, `dirFd_meaning`, `dirFd_calls`, `dirFd_rename`, `symlink_dirFd_counterexample`. Functions supporting dir_fd on the host; string paths.
* **C56 on Windows read-only and open files cannot be deleted** (proved): `win_keeps_entry`, `win_remove_denied`. Windows configuration, case-sensitive or not. Renaming a directory around the file moves the entry along with its directory.
* **C57 whole-file reading, writing and touch** (proved): `readBytes_existing`, `writeBytes_existing`, `write_read`, `writeBytes_new`, `touch_existing`, `touch_new`, `touch_plain`. Bytes only (text encodings are outside the model). The file must not be open elsewhere with unflushed data to see only these changes: other handles keep their own buffers (C32).
* **C58 Windows drives and normalisation** (proved): `splitdrive_parts`, `parts_unique`, `win_isabs`, `win_normpath_parts`, `win_normpath_idempotent`, `win_normpath_meaning`, `windows_normpath_not_idempotent`. A path without drive that contains a colon can get a drive by being normalised (windows_normpath_not_idempotent), hence the condition.
* **C59 joining and absolute Windows paths** (proved): `win_join_meaning`, `travels_exists`, `win_join_absolute`, `win_abspath`, `demoWin_cwd`, `win_join_counterexample`. For paths that are not ordinary joining can invent a drive (win_join_counterexample).
* **C60 splitting Windows paths** (proved): `win_splitpath`, `win_split_counterexample`. A second colon loses the text after it (win_split_counterexample).
* **C61 a path ending with a separator names only directories** (proved): `stat_trailing`, `stat_trailing_missing`, `isfile_trailing`, `getsize_trailing`, `listdir_trailing`, `exists_trailing`, `remove_trailing`, `open_trailing`, `lstat_trailing`, `mknod_trailing`, `link_trailing`, `trailing_counterexample`. exists of a FIFO with a trailing separator is True and lstat of a link with one describes the link (trailing_counterexample); stat is stated for the superuser, who is not subject to directory permissions.
* **C62 creating never replaces an existing name** (proved): `mkdir_existing`, `makedirs_existing`, `createDir_existing`, `createFile_existing`, `symlink_existing`, `link_existing`, `mknod_existing`, `open_exclusive`. open with x of a name in a cycle of links fails with ELOOP instead (example).
* **C63 recursive removal takes exactly one subtree** (proved): `removeObject_tree`, `removeObject_inside`, `removeObject_half_way`. A removal that fails half way has removed part of the subtree (removeObject_half_way).
* **C64 a mapped real file is a snapshot taken at the first look** (proved): `Real.mapped_snapshot`, `Real.mapped_written`, `Real.mapped_stat`, `Real.mapped_read_only`, `Real.add_real_missing`. Own model (Verif/Real.lean): the real filesystem as environment. Deviations proved in Real.mapped_counterexamples.
* **C65 a lazily mapped directory looks like the real one** (proved): `Real.lazy_transparent`, `Real.eager_leaves`, `Real.eager_image`. The real tree is constant here. With lazy_read=False empty directories are lost (Real.eager_empty_counterexample).
* **C66 I/O on one file leaves every other file alone** (proved): `io_isolated`, `io_isolated_history`. Closing is not included (it changes the table of open files; C29, C52).
* **C67 a descriptor behaves like a byte array with a cursor** (proved): `fd_is_byteArray`, `sendfile_copies`, `fsync_spec`. Unlike for file objects (C30) no restriction to safe writes is needed for os.write; sendfile uses the file object's write and keeps the restriction.
* **C68 reading and writing through one append handle** (proved): `append_is_byteArray`, `append_seek_relative_counterexample`, `append_truncate_counterexample`. seek relative to the current position goes wrong in pyfakefs (counterexample); truncate of append handles is not covered (counterexample).
* **C69 comparing, copying and indexing stat results** (proved): `stat_result_eq`, `stat_result_equiv`, `stat_result_record`, `stat_result_item`, `stat_result_items`, `stat_result_copy`, `stat_result_setFrom`, `file_attributes_posix`, `file_attributes_counterexample`. The Windows attributes of directories and regular files are wrong in pyfakefs (counterexample for all permission bits).
* **C70 lines of a binary file** (proved): `file_lines`, `line_first`, `firstLine_unique`, `lines_of`, `linesOf_unique`, `writelines_write`, `append_iteration_counterexample`, `closed_iteration_counterexample`. writelines is modelled for a list (an iterator would be consumed by the first attempt).
* **C71 text files** (proved): `writeText_existing`, `readText_existing`, `write_read_text`, `text_file`, `universal_of`, `universal_unique`, `universal_no_cr`, `universal_same`, `ascii_faithful`. The encoding is a parameter (any pair of functions); stateful encodings such as UTF-16 with byte order mark, and mixed reading and writing in text mode, are not modelled.
* **C72 what Patcher replaces** (proved): `Patch.find_exact`, `Patch.find_cached`, `Patch.target_unique`, `Patch.patched_exactly`. Objects are seen through inspect, __name__, __module__ and __dict__, without side effects of looking at them; default arguments are covered by C37.
* **C73 sys.modules during and after a test** (proved): `Patch.import_fake`, `Patch.restored_fake`, `Patch.dropped_new`, `Patch.kept_loaded`, `Patch.leaked_fake`. Assignments to sys.modules by the test are not modelled; what reload of modules_to_reload does is not modelled beyond the entry staying.
* **C74 Every history of calls is answered as a reference file system answers it** (proved): `refines`, `refines_from`, `refines_step`, `init_refSt`. refinement to SpecRef.Ref.Step: refines_step is the simulation for one call, refines the theorem for histories from a new filesystem; renames between names that differ only in case are excluded (known deviation)
* **C75 Calls whose result depends on the emulated operating system** (proved): `fsync_all`, `not_available`, `sendfile_mac`, `readlink_trailing`, `symlink_trailing`, `isDriveLetter_iff`, `readlink_relative_loop`, `readlink_file_sep`. two deviations proved by example: a relative self-link outside the current directory gives ENOENT, and a link to a regular file is read although POSIX prescribes ENOTDIR
* **C76 Every history of calls on names and file descriptors is answered as a reference file system answers it** (proved): `fdRefines_step`, `fdRefines_from`, `init_sysSt`, `fdRefines`. three answers of the reference system are pyfakefs's and not Linux's (listed in SpecFd.lean): os.read of a directory descriptor, opening below a file without O_CREAT, opening a directory with O_CREAT|O_EXCL
* **C77 A path through links to directories means what the path without them means** (proved): `spellings_read`, `spellings_attr`, `spellings_make`, `spellings_open`, `spellings_link`, `spellings_rename`, `spellings_counterexample`. Spellings is defined from resolve_path alone; names contain no "..", the null device is not involved, and the budget clause excludes only that the longer chain of links fails with ELOOP where the shorter one does not. Not covered: os.makedirs and rename onto an existing target (the code looks those up with relative links taken from the current directory, spellings_counterexample).
* **C78 What Windows, macOS and Linux refuse, and with which error** (proved): `rename_windows_refused`, `replace_windows_refused`, `replace_windows_file`, `rename_into_file`, `rename_self_sep`, `remove_directory`, `remove_dirlink_sep`, `remove_broken_sep`, `rmdir_dot`, `rmdir_link`, `link_directory`, `link_old_sep`, `addObject_nondir`, `makedirs_through_file`, `posix_only`, `open_directory`, `open_new_sep`, `open_excl_link`, `osOpen_directory`, `stat_file_sep`, `mkdir_in_use`, `makedirs_broken_mac`, `add_protected`, `raw_empty`, `symlink_sep`, `link_new_sep`, `readlink_sep`, `islink_sep`, `lstat_link_sep`, `rename_link_dir`, `dotdot_windows`, `followLink_unc`, `lresolve_below_file`, `getObject_below_file`, `mkdir_no_parent`, `unsupported_all`, `truncate_readonly`, `rename_link_self`. The theorems assume no invariant (osOpen_directory: a reachable state); what is at a path is stated with the lookup calls of the API. open_directory excludes truncating modes: open(dir, "w") fails with EISDIR on every platform, also Windows (recorded as a finding).
* **C79 The size of a directory is the sum over the paths below it** (proved): `dir_size`, `dir_size_all`, `Spec.FilesBelow.unique`. Spec.FilesBelow lists the paths below a directory (as lists of names) that lead to non-directories, each once; dir_size proves that such a list exists and gives the size, Spec.FilesBelow.unique that it is determined up to order, dir_size_all that every such list gives the size.
* **C80 Modes and file times on an emulated Windows** (proved): `chmod_windows`, `read_windows`, `flush_windows`, `flush_remembers`, `close_windows`. flush_windows and close_windows exclude /dev/null and files of unknown contents; close_windows excludes descriptors from os.open (never flushed on close) and delete-on-close files. open(..., "w") on Windows is in C33 (open_existing: mtime set, ctime kept).
* **C81 Renaming to another spelling on a case-insensitive filesystem** (proved): `rename_spelling`, `respelled_lookup`. The path is given by what it resolves to (both spellings resolve to the same object of the same directory on the same device).
* **C82 Drives on an emulated Windows** (proved): `autoMount_drive`, `drive_letter`, `no_autoMount`, `drive_stays`. 
* **C83 Files with a size but without contents** (proved): `createFile_large`, `large_refused`, `large_osRead`, `open_large`, `truncate_large`, `large_update_counterexample`, `large_append_counterexample`, `mknod_large_counterexample`, `mknod_relative_counterexample`. 
* **C84 os.walk on every platform, with and without following links** (proved): `osWalk_yields`, `yields_unique`, `yields_paths`, `osWalk_follow_ends`. The interpreter must allow as many nested calls as 42 times the number of objects (a path is found through at most 41 links). onerror=None; the filesystem and the lists do not change during the walk. Names start with no two dots, objects of directory type are directories, nothing exists at the path of the null device.
* **C85 How a path is written does not matter** (proved): `written_read`, `written_attr`, `written_remove`, `written_make`, `written_open`, `written_osOpen`, `written_mknod_counterexample`, `written_up_counterexample`, `written_mkdir_counterexample`. No name begins with two dots. Where the path goes up from what does not exist the calls disagree (written_up_counterexample); os.mkdir("/../z") fails (written_mkdir_counterexample). The path is not the null device or in it; the current directory has a normalised path (true unless chdir was given "" or "//x": see C03). os.open: not on Windows, usage within the sizes of the file systems, directories have directory type. create_file, create_dir and symlink: separator "/".
* **C86 Programs with a current directory: refinement of the reference file system with relative paths** (proved): `talks`, `talks_step`. The reference is SpecRef (see C74 for its three deviations from Linux) and SpecText: the current directory is a location, not a directory (it does not follow a rename, as on Linux), and os.mkdir of a bare name in a removed current directory reports ENOTDIR if the way there leads through a file. The path of os.mkdir does not go up; ".." is lexical. Paths that create, remove or rename end with a name. Root user, one device of unlimited size.
* **C87 Programs with descriptors and a current directory: refinement of the reference file system** (proved): `fdTalks`, `fdTalks_step`. C76 and C86 together; the reference is SpecFd, SpecText and SpecFdText, with the deviations from Linux named there. A path that is opened with O_CREAT ends with a name. Truncating an empty file to a positive size is left out (C34: it gets a size without contents), as is os.ftruncate of the descriptor of a directory; os.truncate of a directory raises AttributeError, os.ftruncate works through descriptors open for reading only, and os.access below a file raises ENOTDIR. Root user, one device of unlimited size.
* **C88 Modes, owners, times and the umask do not show in what root reads and writes** (proved): `lives`, `deeds_step`. The reference is SpecLife, over SpecFdText. Symbolic links are outside (as in C87). A mode or a umask without the owner's read permission is outside (pyfakefs refuses some calls on such a file even for root).

## Axioms

Output of `#print axioms` for the theorems named in MANIFEST.json, grouped.

* **propext, Classical.choice, Quot.sound** (302): Patch.dropped_new, Patch.find_cached, Patch.find_exact, Patch.import_fake, Patch.kept_loaded, Patch.leaked_fake, Patch.patched_exactly, Patch.restored_fake, Spec.FilesBelow.unique, access_spec, addMountPoint_effect, addMountPoint_exists_counterexample, addMountPoint_mounts, add_protected, append_fd, append_is_byteArray, append_iteration_counterexample, append_mixed_counterexample, append_mode, append_read_counterexample, append_seek_relative_counterexample, append_truncate_counterexample, autoMount_drive, bad_fd, buffered_overwrite_counterexample, case_calls, case_exists, case_no_second, case_resolve, chmod_effect, chmod_perm, close_closefd, close_deletes, close_frees, close_visible, close_windows, closed_iteration_counterexample, closed_stays_closed, contents_shared, createDir_existing, createFile_cleanup_counterexample, createFile_effect, createFile_existing, createFile_full, createFile_large, createFile_outcome, createFile_overfull_counterexample, cwd_absolute, cwd_not_canonical, cwd_only_chdir, deeds_step, demoWin_cwd, descriptor_step, dirFd_meaning, dir_size, dir_size_all, directory_frozen, directory_not_below_itself, directory_one_parent, directory_one_path, directory_protected, diskUsage_deepest, diskUsage_prefix_counterexample, drive_letter, drive_stays, exists_stat, exists_trailing, failed_call, fdRefines, fdRefines_from, fdRefines_step, fdTalks, fdTalks_step, fd_is_byteArray, fd_shared_only_by_fdopen, fd_unambiguous, file_attributes_counterexample, file_is_byteArray, file_lines, firstLink_location, flush_atomic, flush_remembers, flush_stamps, flush_visible, flush_windows, fstat_open, fstat_same_file, ftruncate_readonly_counterexample, getsize_trailing, init_refSt, init_sysSt, inode_identifies_object, inode_identifies_stat, inode_stable, io_bytes, io_step, isDriveLetter_iff, isfile_trailing, ismount_iff, item_counterexample, item_floor, item_near, large_append_counterexample, large_update_counterexample, link_device_counterexample, link_effect, link_existing, link_name_counterexample, link_trailing, linked_iff_named, listdir_entries, listdir_lexists, listdir_lexists_counterexample, listdir_trailing, lives, lstat_trailing, makedirs_again, makedirs_dirs, makedirs_effect, makedirs_existing, makedirs_idempotent, makedirs_link_counterexample, makedirs_mode, mkdir_denied, mkdir_effect, mkdir_existing, mkdir_mode, mkdir_outcome, mknod_existing, mknod_large_counterexample, mknod_mode, mknod_relative_counterexample, mknod_trailing, mounts_canon, mounts_distinct, mounts_step, negative_fd_counterexample, nlink_counts_names, nlink_directory, no_cycles_at_all, null_spelling, objPath_drive_counterexample, objPath_leads_back, objPath_names, one_device, open_exclusive, open_existing, open_large, open_lowest, open_mode, open_new, open_trailing, osOpen_directory, osOpen_lowest, osOpen_mode_counterexample, osReadonly_never_changes, osWalk_follow_ends, osWalk_spec, osWalk_unreadable_counterexample, osWriteonly_never_reads, owner_history, owner_step, parts_unique, pathResolve_realpath, pathResolve_result, pathResolve_spec, queries_fail, queries_stat, quota_history, quota_setDiskUsage, quota_setDiskUsage_counterexample, quota_step, readBytes_existing, readText_existing, read_stamps, reader_current, readlink_file_sep, readlink_relative_loop, readlink_symlink, readlink_trailing, readonly_never_changes, realpath_relative_counterexample, realpath_resolves, realpath_spec, refines, refines_from, refines_step, relpath_meaning, relpath_separator_counterexample, removeObject_half_way, removeObject_inside, removeObject_tree, remove_denied, remove_effect, remove_outcome, remove_trailing, rename_effect, rename_exdev_counterexample, rename_link_self, rename_lost_counterexample, rename_mount_counterexample, rename_one_device, rename_outcome, rename_paths, rename_same, rename_self_sep, rename_spelling, reported_dirs, resolvePath_no_symlink, resolvePath_not_canonical, resolvePath_stable, resolve_loop_eloop, resolve_object, resolve_terminates, respelled_lookup, rmdir_effect, rmdir_outcome, root_not_refused, samefile_iff, scandir_broken_counterexample, scandir_spec, sendfile_copies, setContents_atomic, setContents_enospc, setDiskUsage_mounts, spellings_attr, spellings_counterexample, spellings_link, spellings_make, spellings_open, spellings_read, spellings_rename, split_head_no_trailing_sep, split_join_meaning, split_lossless, split_tail_no_sep, splitdrive_parts, splitroot_extended_counterexample, splitroot_windows, stat_parent_counterexample, stat_result_copy, stat_result_item, stat_result_items, stat_trailing, stat_trailing_missing, std_kept, symlink_dirFd_counterexample, symlink_effect, symlink_existing, symlink_followed, symlink_trailing, talks, talks_step, text_file, times_forward, times_past, toNs_int, touch_new, touch_plain, trailing_counterexample, travels_exists, tree_call_times, truncate_cursor_counterexample, truncate_empty_counterexample, twins_reachable, umask_returns, unflushed_lost_counterexample, usage_devices_counterexample, usage_is_stored, usage_rewrite_counterexample, usage_unlinked_counterexample, utime_bad_args, win_abspath, win_isabs, win_join_absolute, win_join_counterexample, win_join_meaning, win_keeps_entry, win_normpath_idempotent, win_normpath_meaning, win_normpath_parts, win_split_counterexample, win_splitpath, windows_normpath_not_idempotent, writeBytes_existing, writeBytes_new, writeText_existing, write_atomic, write_read, write_read_text, writelines_write, writeonly_never_reads, written_attr, written_make, written_mkdir_counterexample, written_mknod_counterexample, written_open, written_osOpen, written_read, written_remove, written_up_counterexample, yields_paths
* **propext, Quot.sound** (71): Real.add_real_missing, Real.eager_image, Real.eager_leaves, Real.lazy_transparent, Real.mapped_read_only, Real.mapped_snapshot, Real.mapped_written, Stub.patch_brackets, Stub.set_unset_all, Stub.smart_set_unset_all, absnormpath_absolute, absnormpath_canonical, absnormpath_idempotent, absnormpath_meaning, ascii_faithful, chmod_type, chmod_windows, chown_effect, components_roundtrip, followLink_unc, fsync_spec, ftruncate_effect, init_noTwins, io_isolated, io_isolated_history, io_keeps_paths, io_keeps_tree, islink_lstat, islink_sep, join_assoc, join_meaning, join_restart, linesOf_unique, lines_of, link_new_sep, lstat_link_sep, mkdir_no_parent, mode_meaning, no_autoMount, normpath_abs_iff, normpath_canonical, normpath_eq_iff_same_location, normpath_fixed_iff, normpath_idempotent, normpath_join_meaning, normpath_meaning, open_directory, osWalk_unlisted, osWalk_yields, osWrite_refused, path_of_components, readlink_islink, relpath_empty, remove_directory, rename_link_dir, rename_new_device, resolveComps_spec, sendfile_mac, splitdrive_drive_shape, splitroot_posix, stat_file_sep, stat_result_eq, stat_result_equiv, stat_result_record, truncate_atomic, truncate_effect, truncate_large, utime_ns, win_remove_denied, xattr_map, xattr_step
* **propext** (67): Real.mapped_stat, Stub.pause_resume_idem, Stub.setUp_twice_counterexample, Stub.set_inherited_counterexample, Stub.set_mixed_counterexample, Stub.smart_set_method_counterexample, addObject_nondir, chdir_effect, components_of_absPath, components_unique, dirFd_calls, dirFd_closed, dirFd_ignored, dirFd_rename, dotdot_windows, file_attributes_posix, firstLine_unique, fsync_all, getObject_below_file, join_fold, join_one, large_osRead, large_refused, line_first, link_directory, link_old_sep, lresolve_below_file, makedirs_broken_mac, makedirs_through_file, mkdir_in_use, not_available, open_excl_link, open_missing, open_new_sep, osRead_refused, osWalk_no_oserror, posix_only, raw_empty, read_refused, read_windows, readlink_sep, remove_broken_sep, remove_dirlink_sep, rename_into_file, rename_windows_refused, replace_windows_file, replace_windows_refused, rmdir_dot, rmdir_link, setxattr_errno, splitdrive_lossless, splitdrive_posix, stat_fields, stat_result_setFrom, symlink_sep, touch_existing, truncate_readonly, truncate_refused, universal_no_cr, universal_of, universal_same, universal_unique, unsupported_all, utime_cases, write_refused, xattr_read, yields_unique
* **none** (2): Patch.target_unique, umask_effect
