import Verif.Model.Base64
import Verif.Model.Bytes
import Verif.Model.Addr
import Verif.Model.Caddr
import Verif.Model.Vrange
import Verif.Model.Meta
import Verif.Model.EncDec
import Verif.Props.Base64
import Verif.Props.Addr
import Verif.Props.Caddr
import Verif.Props.Vrange
import Verif.Props.Meta
import Verif.Props.EncDec
import Verif.Props.FreeCache
import Verif.Props.AllocProps
import Verif.Props.DirIndex
import Verif.Props.Dir
import Verif.Props.Readdir
import Verif.Props.DirNode
import Verif.Model.Access
import Verif.Props.Access
import Verif.Model.Namei
import Verif.Props.NameiBase
import Verif.Props.Base64Rfc
import Verif.Props.NameiEff
import Verif.Props.NameiInv
import Verif.Props.NameiStep
import Verif.Props.NameiBody
import Verif.Props.NameiLinks
import Verif.Props.NameiLife
import Verif.Props.NameiFail
import Verif.Props.NameiWit
import Verif.Props.NameiTree
import Verif.Props.NameiLimits
import Verif.Model.FileMap
import Verif.Props.FileMap
import Verif.Model.File
import Verif.Props.FileBase
import Verif.Props.FileLeaf
import Verif.Props.FileTree
import Verif.Props.FileWrite
import Verif.Props.FileDiscard
import Verif.Spec.FileBytes
import Verif.Model.FileOps
import Verif.Props.FileOps
import Verif.Props.FileSeek
import Verif.Props.FileCopyBad
import Verif.Props.FileCopyStep
import Verif.Props.FileCopy
import Verif.Props.Snap
import Verif.Model.Xattr
import Verif.Props.XattrNode
import Verif.Props.Xattr
import Verif.Model.Symlink
import Verif.Props.Symlink
import Verif.Props.Inode
import Verif.Props.Idsmap
import Verif.Props.Avl
import Verif.Props.Compare
import Verif.Props.FlushSync
import Verif.Props.Flush
import Verif.Props.FlushBase
import Verif.Model.Flush
import Verif.Props.FileBlocks
import Verif.Model.Verify
import Verif.Props.VerifyDir
import Verif.Props.VerifyNode
import Verif.Props.VerifyInode
import Verif.Props.Delfs
import Verif.Props.DelfsAll
import Verif.Props.DelfsHeld
import Verif.Props.DelfsStep
import Verif.Props.DelfsEnd
import Verif.Model.Pack
import Verif.Props.PackIndex
import Verif.Props.Pack
import Verif.Props.PackRound
import Verif.Props.PackBad
import Verif.Props.PackCases
import Verif.Props.Mntsvc
import Verif.Props.MntsvcMsg
import Verif.Props.MntsvcCases
import Verif.Props.MntsvcGrant
import Verif.Props.Mntconf
import Verif.Props.MntconfOnly
import Verif.Props.Boot
import Verif.Props.BootCrash
import Verif.Props.BootName
import Verif.Props.Fork
import Verif.Props.ForkFail
import Verif.Props.Locks
import Verif.Props.FuseAnswer
import Verif.Props.Emit
import Verif.Props.Sysio
import Verif.Model.Repo
import Verif.Spec.Repo
import Verif.Props.RepoCache
import Verif.Props.RepoDisk
import Verif.Props.RepoStep
import Verif.Props.RepoStep2
import Verif.Props.RepoRun
import Verif.Props.RepoSync
import Verif.Props.RepoLive
import Verif.Props.RepoWit
import Verif.Model.Lcache
import Verif.Spec.Lcache
import Verif.Props.LcacheInv
import Verif.Props.LcacheMaint
import Verif.Props.LcacheStep
import Verif.Props.LcacheRun
import Verif.Props.LcacheUse
import Verif.Props.Uamap
import Verif.Model.Opers
import Verif.Spec.Opers
import Verif.Props.Opers
import Verif.Props.OpersRun
import Verif.Props.OpersWit
import Verif.Model.Qalloc
import Verif.Spec.Qalloc
import Verif.Props.QallocPool
import Verif.Props.QallocArith
import Verif.Props.QallocInv
import Verif.Props.Qalloc
import Verif.Model.Stage
import Verif.Spec.Stage
import Verif.Props.StageInv
import Verif.Props.StageMake
import Verif.Props.StageNode
import Verif.Props.StageBind
import Verif.Props.StagePath
import Verif.Props.StageRun
import Verif.Props.StageStray
import Verif.Props.Stage
import Verif.Props.Strview
import Verif.Props.Text
import Verif.Props.IdsconfLine
import Verif.Props.Idsconf
import Verif.Props.Pipe
import Verif.Spec.Pipe
import Verif.Model.Pipe
import Verif.Props.FileAsync
import Verif.Props.Whole
import Verif.Props.Bstore
import Verif.Props.BstoreNode
import Verif.Model.Report
import Verif.Props.ReportMem
import Verif.Props.Report
import Verif.Props.ReportShow
import Verif.Props.ReportRest
import Verif.Props.ReportStat
import Verif.Model.Mntinfo
import Verif.Spec.Mntinfo
import Verif.Props.Mntinfo
import Verif.Props.MntinfoList
import Verif.Model.Passwd
import Verif.Spec.Passwd
import Verif.Props.Passwd
import Verif.Props.PasswdOpts
import Verif.Model.Submitq
import Verif.Spec.Submitq
import Verif.Props.SubmitqInv
import Verif.Props.SubmitqOrd
import Verif.Props.SubmitqRefs
import Verif.Props.Submitq
import Verif.Model.Linklist
import Verif.Spec.Linklist
import Verif.Props.LinklistInv
import Verif.Props.LinklistForest
import Verif.Props.Linklist
import Verif.Model.Hmapq
import Verif.Spec.Hmapq
import Verif.Props.HmapqRep
import Verif.Props.HmapqCalls
import Verif.Props.HmapqFind
import Verif.Props.Hmapq
import Verif.Model.Cmdval
import Verif.Spec.Cmdval
import Verif.Props.CmdvalRound
import Verif.Props.Cmdval
import Verif.Model.Optargs
import Verif.Spec.Optargs
import Verif.Props.Optargs
import Verif.Model.Serve
import Verif.Spec.Serve
import Verif.Props.Serve
import Verif.Model.Conn
import Verif.Spec.Conn
import Verif.Props.Conn
import Verif.Props.ServeMore
import Verif.Model.Fsinst
import Verif.Spec.Fsinst
import Verif.Props.Fsinst
import Verif.Model.Cmdseq
import Verif.Spec.Cmdseq
import Verif.Props.Cmdseq
import Verif.Props.CmdseqEnds
import Verif.Props.CmdseqLock
import Verif.Model.Mntcmd
import Verif.Spec.Mntcmd
import Verif.Props.Mntcmd
import Verif.Props.MntcmdWit
import Verif.Model.Mountd
import Verif.Spec.Mountd
import Verif.Props.Mountd
import Verif.Props.MountdWit
import Verif.Model.DirSize
import Verif.Model.SymBlocks
import Verif.Props.DirSize
import Verif.Props.SymBlocks
import Verif.Model.RepoFmt
import Verif.Spec.RepoFmt
import Verif.Props.RepoFmt
import Verif.Model.Fsck
import Verif.Spec.Fsck
import Verif.Props.Fsck
import Verif.Props.FsckCases
import Verif.Model.Ident
import Verif.Props.Ident
import Verif.Props.IdentCases
import Verif.Props.PackLost
import Verif.Model.Super
import Verif.Spec.Super
import Verif.Props.Super
import Verif.Props.SuperLoad
import Verif.Props.SuperCases
import Verif.Props.FileAccess
import Verif.Props.DirPath
import Verif.Props.NameiChecks
