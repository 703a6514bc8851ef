import Verif.Props.Paths
import Verif.Props.Tree
import Verif.Props.Lookup
import Verif.Props.Attr
import Verif.Props.Times
import Verif.Props.StatRes
import Verif.Props.Xattr
import Verif.Props.Stub
import Verif.Props.Links
import Verif.Props.Remove
import Verif.Props.Hardlink
import Verif.Props.Data
import Verif.Props.Fd
import Verif.Props.Perm
import Verif.Sane
import Verif.Props.Dirs
import Verif.Props.Umask
import Verif.Props.Follow
import Verif.Props.Bytes
import Verif.Props.Append
import Verif.Props.AppendRead
import Verif.Props.Visible
import Verif.Props.Atomic
import Verif.Props.Rename
import Verif.Props.Failed
import Verif.Props.Pathlib
import Verif.Props.Walk
import Verif.Props.Scandir
import Verif.Props.Realpath
import Verif.Mounts
import Verif.Props.Mounts
import Verif.Props.Usage
import Verif.Props.Resolve
import Verif.Props.Chown
import Verif.Props.Case
import Verif.Meta
import Verif.Props.Owner
import Verif.IoTree
import Verif.Props.Descr
import Verif.Relpath
import Verif.Props.Relpath
import Verif.OsPath
import Verif.MountFrame
import Verif.Props.MountTable
import Verif.Props.Query
import Verif.Props.WinRemove
import Verif.WholeFile
import Verif.Props.WholeFile
import Verif.SpecWin
import Verif.WinPath
import Verif.Props.WinPaths
import Verif.Props.WinJoin
import Verif.Props.WinSplit
import Verif.Props.Excl
import Verif.Props.Space
import Verif.Props.Alias
import Verif.Props.AliasOps
import Verif.Props.AliasOpen
import Verif.Props.RemoveTree
import Verif.Props.Trail
import Verif.Props.TrailMore
import Verif.Props.Platform
import Verif.Real
import Verif.Props.Real
import Verif.Isolate
import Verif.Sendfile
import Verif.Props.FdBytes
import Verif.Lines
import Verif.Props.Lines
import Verif.Text
import Verif.Props.Text
import Verif.Patch
import Verif.Props.Patch
import Verif.SpecRef
import Verif.Refine
import Verif.Props.Refine
import Verif.Props.RefineIO
import Verif.Props.RefineMore
import Verif.Props.RefinePrune
import Verif.Props.RefineRun
import Verif.Props.Refused
import Verif.Held
import Verif.SpecFd
import Verif.FdSys
import Verif.Props.RefineFd
import Verif.Props.RefineOpen
import Verif.InTree
import Verif.Props.RefineTree
import Verif.Props.PlatformOps
import Verif.Props.PlatformOpen
import Verif.Props.PlatformMore
import Verif.Props.DirSize
import Verif.Props.Spelling
import Verif.Props.Drives
import Verif.Props.PlatformLinks
import Verif.Props.Large
import Verif.Props.WalkLinks
import Verif.Props.LeadsBack
import Verif.Props.Written
import Verif.Props.WrittenOps
import Verif.Props.WrittenMake
import Verif.Props.WrittenThm
import Verif.Props.RefineText
import Verif.SpecText
import Verif.SpecFdText
import Verif.Props.RefineFdText
import Verif.SpecLife
import Verif.Props.RefineLife
