import Verif.AsyncWriter.Account
import Verif.AsyncWriter.Command
import Verif.AsyncWriter.Ending
import Verif.AsyncWriter.Fails
import Verif.AsyncWriter.Lemmas
import Verif.AsyncWriter.Model
import Verif.AsyncWriter.Order
import Verif.AsyncWriter.Polite
import Verif.AsyncWriter.Progress
import Verif.Bincodec.Base32
import Verif.Bincodec.Base64
import Verif.Bincodec.Hex
import Verif.Bincodec.Lemmas
import Verif.Bincodec.Model
import Verif.Bincodec.Props
import Verif.Bincodec.Safe
import Verif.Bithacks.Lemmas
import Verif.Bithacks.Model
import Verif.Bithacks.Props
import Verif.Bitlist.Model
import Verif.Bitlist.Props
import Verif.Bits.Lemmas
import Verif.Bits.Model
import Verif.Bits.ParserLemmas
import Verif.Bits.Props
import Verif.Bits.Tables
import Verif.Buf.Lemmas
import Verif.Buf.Model
import Verif.Buf.Props
import Verif.Cache.Model
import Verif.Cache.Props
import Verif.Chr
import Verif.Cmp
import Verif.Codepage.Lemmas
import Verif.Codepage.Loops
import Verif.Codepage.Model
import Verif.Codepage.Props
import Verif.Codepage.Spec
import Verif.Codepage.Tables
import Verif.ConnPool.Inv
import Verif.ConnPool.Model
import Verif.ConnPool.Props
import Verif.ConnPool.Steps
import Verif.Crc.Lemmas
import Verif.Crc.Model
import Verif.Crc.Props
import Verif.Csv.Model
import Verif.Csv.Props
import Verif.Decimal.Lemmas
import Verif.Decimal.Model
import Verif.Decimal.Props
import Verif.Decimal.Text
import Verif.Decimal.TextProps
import Verif.Dict.Model
import Verif.Dict.Props
import Verif.ExceptDec
import Verif.FsFile.CopyLemmas
import Verif.FsFile.CopyProps
import Verif.FsFile.Lemmas
import Verif.FsFile.Model
import Verif.FsFile.Ops
import Verif.FsFile.Props
import Verif.FsFile.Spec
import Verif.FsPath.Lemmas
import Verif.FsPath.LinkProps
import Verif.FsPath.Model
import Verif.FsPath.Props
import Verif.FsPath.SplitProps
import Verif.FsPerms.Lemmas
import Verif.FsPerms.Model
import Verif.FsPerms.Props
import Verif.FsPerms.Spec
import Verif.Getopt.Lemmas
import Verif.Getopt.Model
import Verif.Getopt.Parse
import Verif.Getopt.Props
import Verif.GroupInsert.Lemmas
import Verif.GroupInsert.Model
import Verif.GroupInsert.Outcome
import Verif.GroupInsert.Props
import Verif.GroupInsert.Steps
import Verif.GroupInsert.Witness
import Verif.Hash.AsMap
import Verif.Hash.Lemmas
import Verif.Hash.Model
import Verif.Hash.Props
import Verif.HashMulti.Lemmas
import Verif.HashMulti.Model
import Verif.HashMulti.Props
import Verif.HashMulti.Spec
import Verif.Hexdump.Lemmas
import Verif.Hexdump.Model
import Verif.Hexdump.Props
import Verif.Hexdump.Spec
import Verif.Http.Feed
import Verif.Http.FrameLemmas
import Verif.Http.FrameProps
import Verif.Http.FrameSpec
import Verif.Http.FrameSteps
import Verif.Http.HeaderModel
import Verif.Http.HeaderProps
import Verif.Http.HeaderSpec
import Verif.Http.Model
import Verif.Http.Props
import Verif.Http.Stable
import Verif.Http.WriterLemmas
import Verif.Http.WriterModel
import Verif.Http.WriterProps
import Verif.Http.WriterSpec
import Verif.Http.WriterSteps
import Verif.Ini.Copy
import Verif.Ini.Doc
import Verif.Ini.Kvs
import Verif.Ini.Model
import Verif.Ini.Names
import Verif.Ini.Print
import Verif.Ini.Props
import Verif.Ini.Read
import Verif.Ini.ReadProps
import Verif.Ini.Seg
import Verif.Ini.Store
import Verif.Ini.Tree
import Verif.Ini.Update
import Verif.Ini.Write
import Verif.Ini.WriteProps
import Verif.IniMerge.Keys
import Verif.IniMerge.Lemmas
import Verif.IniMerge.Model
import Verif.IniMerge.Props
import Verif.IniMerge.Spec
import Verif.IoBuffer.Lemmas
import Verif.IoBuffer.Model
import Verif.IoBuffer.Props
import Verif.Json.Fuel
import Verif.Json.Model
import Verif.Json.Props
import Verif.Json.ReadProps
import Verif.Json.Sound
import Verif.Json.SoundProps
import Verif.Json.Spec
import Verif.Json.WriteProps
import Verif.JsonPath.Lemmas
import Verif.JsonPath.Model
import Verif.JsonPath.ParseLemmas
import Verif.JsonPath.Props
import Verif.JsonPath.SearchLemmas
import Verif.JsonPath.Spec
import Verif.LList.Lemmas
import Verif.LList.Model
import Verif.LList.Props
import Verif.LogTags.Model
import Verif.LogTags.Props
import Verif.MList.Lemmas
import Verif.MList.Model
import Verif.MList.Props
import Verif.MList.SortedLemmas
import Verif.MList.SortedProps
import Verif.Mem.EndianProps
import Verif.Mem.Model
import Verif.Mem.Props
import Verif.Num.Lemmas
import Verif.Num.Model
import Verif.Num.Props
import Verif.Parser.Lemmas
import Verif.Parser.Model
import Verif.Parser.Props
import Verif.Parser.Scan
import Verif.Parser.ScanProps
import Verif.PatMatch.Lemmas
import Verif.PatMatch.Model
import Verif.PatMatch.Props
import Verif.Pipe.Line
import Verif.Pipe.Live
import Verif.Pipe.Model
import Verif.Pipe.Props
import Verif.Pipe.Result
import Verif.Pipe.Stage
import Verif.Pool.Inv
import Verif.Pool.Lemmas
import Verif.Pool.Live
import Verif.Pool.Model
import Verif.Pool.Props
import Verif.Pool.Tasks
import Verif.ProxyProto.Binary
import Verif.ProxyProto.Feed
import Verif.ProxyProto.Fields
import Verif.ProxyProto.Lemmas
import Verif.ProxyProto.Model
import Verif.ProxyProto.Props
import Verif.ProxyProto.Sound
import Verif.ProxyProto.Text
import Verif.ProxyProto.Witness
import Verif.Qsort.Lemmas
import Verif.Qsort.Model
import Verif.Qsort.Props
import Verif.Queue.Model
import Verif.Queue.Props
import Verif.Rand.Calc
import Verif.Rand.Lin
import Verif.Rand.Model
import Verif.Rand.Period
import Verif.Rand.Primes
import Verif.Rand.Props
import Verif.Re.Api
import Verif.Re.CompExpand
import Verif.Re.CompLemmas
import Verif.Re.CompModel
import Verif.Re.CompPlaces
import Verif.Re.CompProps
import Verif.Re.CompSpec
import Verif.Re.Fold
import Verif.Re.Lemmas
import Verif.Re.Longest
import Verif.Re.Model
import Verif.Re.Props
import Verif.Re.Sound
import Verif.Re.Spec
import Verif.Re.SubLemmas
import Verif.Re.SubModel
import Verif.Re.SubProps
import Verif.Re.SubSpec
import Verif.RwLock.Model
import Verif.RwLock.Props
import Verif.Shaping.Lemmas
import Verif.Shaping.Model
import Verif.Shaping.Props
import Verif.Shaping.Ready
import Verif.Shaping.Runs
import Verif.Shaping.Safe
import Verif.Shaping.Spec
import Verif.Shaping.Wake
import Verif.Shaping.Window
import Verif.SkipList.Find
import Verif.SkipList.Insert
import Verif.SkipList.Lemmas
import Verif.SkipList.Model
import Verif.SkipList.Props
import Verif.SkipList.Take
import Verif.Sort.Lemmas
import Verif.Sort.Model
import Verif.Sort.Props
import Verif.Sql.Model
import Verif.Sql.Props
import Verif.SqlQuery.Exec
import Verif.SqlQuery.Model
import Verif.SqlQuery.Props
import Verif.SqlQuery.Rows
import Verif.SqlQuery.Tokens
import Verif.SqlQuery.Values
import Verif.SqlQuery.Witness
import Verif.StateMachine.CleanLemmas
import Verif.StateMachine.Lemmas
import Verif.StateMachine.Model
import Verif.StateMachine.MoreLemmas
import Verif.StateMachine.OkLemmas
import Verif.StateMachine.Props
import Verif.StateMachine.SessionLemmas
import Verif.StateMachine.Spec
import Verif.StateMachine.StepLemmas
import Verif.StateMachine.Witness
import Verif.StateMachine.WorkLemmas
import Verif.Str.Model
import Verif.Str.Props
import Verif.Str.SectProps
import Verif.Str.SplitProps
import Verif.StrFmt.Count
import Verif.StrFmt.Lemmas
import Verif.StrFmt.Model
import Verif.StrFmt.Props
import Verif.StrFmt.Render
import Verif.StrFmt.Sim
import Verif.StrFmt.Sinks
import Verif.StrFmt.Spec
import Verif.Table.Cols
import Verif.Table.Lemmas
import Verif.Table.Model
import Verif.Table.Props
import Verif.Table.Rows
import Verif.Table.Spec
import Verif.TableCsv.LoadLemmas
import Verif.TableCsv.Model
import Verif.TableCsv.Props
import Verif.TableCsv.Spec
import Verif.TableCsv.WriteLemmas
import Verif.TableJson.Lemmas
import Verif.TableJson.Model
import Verif.TableJson.Props
import Verif.TableJson.Spec
import Verif.TableMd.Lemmas
import Verif.TableMd.Load
import Verif.TableMd.Model
import Verif.TableMd.Props
import Verif.TableMd.Shape
import Verif.TableMd.Text
import Verif.TableMerge.Lemmas
import Verif.TableMerge.Model
import Verif.TableMerge.Props
import Verif.Textcodec.Model
import Verif.Textcodec.PercentProps
import Verif.Textcodec.PunyProps
import Verif.Textcodec.Punycode
import Verif.Textcodec.QpProps
import Verif.ThreadLocal.Inv
import Verif.ThreadLocal.Lemmas
import Verif.ThreadLocal.Model
import Verif.ThreadLocal.Props
import Verif.ThreadLocal.Spec
import Verif.Time.Lemmas
import Verif.Time.Model
import Verif.Time.Props
import Verif.Timer.Inv
import Verif.Timer.Model
import Verif.Timer.Props
import Verif.Timer.Spec
import Verif.Tls.Model
import Verif.Tls.Props
import Verif.Tz.Lemmas
import Verif.Tz.Model
import Verif.Tz.OlsonLemmas
import Verif.Tz.OlsonProps
import Verif.Tz.RuleLemmas
import Verif.Tz.RuleProps
import Verif.Tz.Spec
import Verif.Utf8.Lemmas
import Verif.Utf8.Model
import Verif.Utf8.Props
import Verif.Verify.Lemmas
import Verif.Verify.ListLemmas
import Verif.Verify.Model
import Verif.Verify.Props
import Verif.Verify.Spec
import Verif.Xml.AttrProps
import Verif.Xml.EntProps
import Verif.Xml.LoopProps
import Verif.Xml.Model
import Verif.Xml.Props
import Verif.Xml.ReadProps
import Verif.Xml.SoundProps
import Verif.Xml.Spec
