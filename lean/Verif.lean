import Verif.Rtr.SerialProps
import Verif.Rtr.TableProps
import Verif.Rtr.DArrayProps
import Verif.Rtr.HistoryProps
import Verif.Rtr.PduProps
import Verif.Rtr.HandlerProps
import Verif.Rtr.EndToEndProps
import Verif.Rtr.Utf8Props
import Verif.Rtr.StreamProps
import Verif.Rtr.StreamSafetyProps
import Verif.Res.AddrProps
import Verif.Res.SetProps
import Verif.Res.ResProps
import Verif.Res.TrimProps
import Verif.Res.RoaProps
import Verif.Res.ProfileProps
import Verif.Slurm.FilterProps
import Verif.Slurm.ParserProps
import Verif.Slurm.LoadProps
import Verif.Uri.PathProps
import Verif.Uri.ReverseProps
import Verif.Uri.UriProps
import Verif.Cache.RecoverProps
import Verif.Cache.ModuleProps
import Verif.Cache.CleanupProps
import Verif.Cache.TmpProps
import Verif.Rrdp.SortProps
import Verif.Rrdp.UpdateProps
import Verif.Rrdp.MirrorProps
import Verif.Rrdp.RetryProps
import Verif.Rrdp.SafeProps
import Verif.Rrdp.ReachProps
import Verif.Cms.SignProps
import Verif.Cms.ObjectProps
import Verif.Mft.MftProps
import Verif.Mft.ShuffleProps
import Verif.Mft.RppProps
import Verif.Mft.TimeProps
import Verif.Tree.Props
import Verif.Tree.CrlProps
import Verif.Pool.Props
import Verif.Pool.CreateProps
import Verif.Tal.ThreadsProps
import Verif.Tal.FileModel
import Verif.Tal.LineProps
import Verif.Tal.SanitizeProps
import Verif.B64.Model
import Verif.B64.Props
import Verif.Net.HttpModel
import Verif.Net.HttpProps
import Verif.Net.RsyncModel
import Verif.Net.RsyncProps
import Verif.Ext.Model
import Verif.Ext.Spec
import Verif.Ext.Lemmas
import Verif.Ext.HandlerLemmas
import Verif.Ext.Props
import Verif.Ext.Props2
import Verif.Conf.Model
import Verif.Conf.Spec
import Verif.Conf.NumLemmas
import Verif.Conf.NumProps
import Verif.Conf.TokLemmas
import Verif.Conf.ParseLemmas
import Verif.Conf.SettingLemmas
import Verif.Conf.Props
import Verif.Conf.Props2
import Verif.Conf.ModelPrint
import Verif.Conf.PrintProps
import Verif.Srv.Model
import Verif.Srv.Spec
import Verif.Srv.Lemmas
import Verif.Srv.ExecLemmas
import Verif.Srv.Props
import Verif.Srv.Props2
import Verif.Cert.Model
import Verif.Cert.Spec
import Verif.Cert.Lemmas
import Verif.Cert.Props
import Verif.Gbr.Model
import Verif.Gbr.Spec
import Verif.Gbr.Lemmas
import Verif.Gbr.Props
import Verif.Out.Model
import Verif.Out.Spec
import Verif.Out.Lemmas
import Verif.Out.Props
import Verif.Fs.Model
import Verif.Fs.Spec
import Verif.Fs.Props
import Verif.Fs.Props2
import Verif.Print.ModelJson
import Verif.Print.Model
import Verif.Print.Spec
import Verif.Print.Lemmas
import Verif.Print.CertLemmas
import Verif.Print.TextLemmas
import Verif.Print.CertProps
import Verif.Print.CertProps2
import Verif.Print.ModelFile
import Verif.Print.SpecFile
import Verif.Print.FileLemmas
import Verif.Print.FileProps
import Verif.Print.DecLemmas
import Verif.Print.DecProps
import Verif.Print.ModelAsn
import Verif.Print.SpecAsn
import Verif.Print.AsnLemmas
import Verif.Print.AsnProps
import Verif.Print.TimeProps
import Verif.Print.SourceProps
import Verif.Print.TruncProps
import Verif.Log.Model
import Verif.Log.Spec
import Verif.Log.Lemmas
import Verif.Log.Props
import Verif.Log.Levels
import Verif.Log.Conc
import Verif.Boot.Model
import Verif.Boot.LogProps
import Verif.Boot.Props
import Verif.Sys.Model
import Verif.Sys.Spec
import Verif.Sys.ResRel
import Verif.Sys.ResRel2
import Verif.Sys.RoaRel
import Verif.Sys.Sim
import Verif.Sys.Auth
import Verif.Sys.Lemmas
import Verif.Sys.HoldLemmas
import Verif.Sys.Props
import Verif.Sys.Cycle
import Verif.Sys.CycleSpec
import Verif.Sys.CycleLemmas
import Verif.Sys.CycleHist
import Verif.Sys.CycleProps
import Verif.Sys.CycleExample
import Verif.Asn.Model
import Verif.Asn.Spec
import Verif.Asn.TlLemmas
import Verif.Asn.TagLemmas
import Verif.Asn.StrLemmas
import Verif.Asn.StrSafe
import Verif.Asn.WF
import Verif.Asn.Sound
import Verif.Asn.Safe
import Verif.Asn.SpecDer
import Verif.Asn.Complete
import Verif.Asn.CompleteAll
import Verif.Asn.Types
import Verif.Asn.ModelCon
import Verif.Asn.Cons
import Verif.Asn.SpecCon
import Verif.Asn.Check
import Verif.Asn.ConLemmas
import Verif.Asn.ConFull
import Verif.Asn.TypeLemmas
import Verif.Asn.ValEq
import Verif.Asn.Props
import Verif.Obj.SpecEnc
import Verif.Obj.SpecObj
import Verif.Obj.Model
import Verif.Obj.EncLemmas
import Verif.Obj.DerLemmas
import Verif.Obj.ShapeProps
import Verif.Obj.RoaLemmas
import Verif.Obj.RoaProps
import Verif.Obj.IpLemmas
import Verif.Obj.SpecCert
import Verif.Obj.CertLemmas
import Verif.Obj.CertProps
import Verif.Obj.TrimCertProps
import Verif.Obj.ManifestLemmas
import Verif.Obj.ManifestProps
import Verif.Sd.Tlvs
import Verif.Sd.DecTlvs
import Verif.Sd.Walk
import Verif.Sd.Model
import Verif.Sd.ShapeLemmas
import Verif.Sd.Same
import Verif.Sd.Prefix
import Verif.Sd.SameStr
import Verif.Sd.SameAll
import Verif.Sd.Spec
import Verif.Sd.ObjLemmas
import Verif.Sd.Example
import Verif.Sd.Props
import Verif.Sd.PropsEnds
import Verif.Sd.SpecEnc
import Verif.Sd.EncLemmas
import Verif.Sd.PropsEnc
import Verif.Sd.ModelRoa
import Verif.Sd.PropsRoa
import Verif.Sd.ModelMft
import Verif.Sd.PropsMft
import Verif.Sd.PropsContent
import Verif.Asn.LeafLemmas
import Verif.Sys.ModelBytes
import Verif.Sys.SpecBytes
import Verif.Sys.BytesLemmas
import Verif.Sys.PropsBytes
import Verif.Sys.SteadyBytes
import Verif.Sys.SpecWritten
import Verif.Sys.PropsWritten
import Verif.Sys.BytesExample
import Verif.Sys.PropsListed
import Verif.Sys.SpecEnds
import Verif.Sys.PropsEnds
import Verif.Db.Model
import Verif.Db.Spec
import Verif.Db.Lemmas
import Verif.Db.Props
import Verif.Mem.Model
import Verif.Mem.Lemmas
import Verif.Mem.LemmasRpp
import Verif.Mem.LemmasStack
import Verif.Mem.LemmasExt
import Verif.Mem.LemmasObj
import Verif.Mem.LemmasNet
import Verif.Mem.LemmasTree
import Verif.Mem.LemmasTal
import Verif.Mem.Props
import Verif.Heap.Basic
import Verif.Heap.Lost
import Verif.Upd.Model
import Verif.Upd.Lemmas
import Verif.Upd.Lost
import Verif.Upd.Props
import Verif.Conn.Model
import Verif.Conn.Lemmas
import Verif.Conn.Refine
import Verif.Conn.Lost
import Verif.Conn.Props
import Verif.Web.Model
import Verif.Web.Spec
import Verif.Web.Lemmas
import Verif.Web.Props
import Verif.Rlog.Model
import Verif.Rlog.Props
import Verif.Fork.Model
import Verif.Fork.Props
import Verif.Xmem.Model
import Verif.Xmem.Spec
import Verif.Xmem.Lemmas
import Verif.Xmem.LemmasDoc
import Verif.Xmem.LemmasUpdate
import Verif.Xmem.Props
import Verif.Omem.Model
import Verif.Omem.Spec
import Verif.Omem.Lemmas
import Verif.Omem.LemmasObj
import Verif.Omem.Props
import Verif.Inherit.Model
import Verif.Inherit.Spec
import Verif.Inherit.Props
import Verif.Cmem.Model
import Verif.Cmem.Spec
import Verif.Cmem.Lemmas
import Verif.Cmem.Props
import Verif.Pmem.Model
import Verif.Pmem.Spec
import Verif.Pmem.Lemmas
import Verif.Pmem.Props
import Verif.Rtime.Model
import Verif.Rtime.Spec
import Verif.Rtime.Props
