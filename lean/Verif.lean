import Verif.Props.CaseIgnoreDict
import Verif.Props.Modlists
import Verif.Props.LdapModify
import Verif.Props.Mirror
import Verif.Props.Transaction
import Verif.Props.TransEffect
import Verif.Props.DisableValidation
import Verif.Props.Filter
import Verif.Props.Net
import Verif.Props.Conn
import Verif.Props.Controls
import Verif.Props.Tags
import Verif.Props.Search
import Verif.Props.AddOrMod
import Verif.Props.Utils
import Verif.Props.Registry
import Verif.Props.Schema
import Verif.Props.Prep
import Verif.Props.Syntax
import Verif.Props.Ldif
import Verif.Props.LdifRead
import Verif.Props.LdifCrlf
import Verif.Props.Dn
import Verif.Props.LdapUri
import Verif.Props.SearchRequest
import Verif.Props.Config
import Verif.Props.Netgroups
import Verif.Props.DescAttrs
import Verif.Props.Registration
import Verif.Props.PagedResults
import Verif.Props.Extensible
import Verif.Props.SchemaSpec
import Verif.Model.Tls
import Verif.Spec.Tls
import Verif.Props.ConnUri
import Verif.Props.Tls
import Verif.Props.StartTls
import Verif.Lemmas.SchemaRender
import Verif.Model.BaseSchema
import Verif.Lemmas.BaseSchemaTable
import Verif.Model.BaseRules
import Verif.Model.AttrSchema
import Verif.Spec.AttrSchema
import Verif.Props.AttrSchema
import Verif.Spec.BaseSchema
import Verif.Props.BaseSchema
import Verif.Model.ObjectSchema
import Verif.Spec.ObjectSchema
import Verif.Props.ObjectSchema
import Verif.Props.BaseObjects
import Verif.Spec.Descriptions
import Verif.Spec.Guide
import Verif.Spec.Syntaxes
import Verif.Spec.Values
import Verif.Props.Descriptions
import Verif.Props.Guide
import Verif.Props.Syntaxes
import Verif.Props.BaseValues
import Verif.Props.Values
import Verif.Props.Wire
import Verif.Props.WireReads
import Verif.Props.WireTyped
import Verif.Props.Sasl
import Verif.Props.Session
import Verif.Props.Refresh
import Verif.Props.TransLdif
import Verif.Props.Instances
import Verif.Props.Instances2
import Verif.Props.Navigate
import Verif.Model.OverWire
import Verif.Spec.OverWire
import Verif.Spec.Answered
import Verif.Props.OverWire
import Verif.Props.Answered
import Verif.Model.Api
import Verif.Spec.Directory
import Verif.Props.Directory
import Verif.Props.Entries
import Verif.Props.Patterns
import Verif.Props.Willing
import Verif.Spec.Willing
import Verif.Model.ApiLdif
import Verif.Spec.ApplyLdif
import Verif.Props.ApplyLdif
import Verif.Props.ApplySent
import Verif.Spec.SearchResults
import Verif.Model.ApiTrans
import Verif.Spec.TransWire
import Verif.Props.TransWire
import Verif.Props.TransWireEffect
import Verif.Props.TransWireNest
import Verif.Props.OpenWire
import Verif.Model.ApiLife
import Verif.Model.ApiLoop
import Verif.Model.ApiObject
import Verif.Spec.Life
import Verif.Spec.Loop
import Verif.Props.Life
import Verif.Props.LoopNet
import Verif.Props.LoopCall
import Verif.Props.Loop
import Verif.Model.DictMethods
import Verif.Spec.OrderedMap
import Verif.Props.DictMethods
import Verif.Spec.ObjectLife
import Verif.Props.ObjectLife
import Verif.Props.GuideExact
import Verif.Model.ApiNetgroups
import Verif.Spec.NetgroupsWire
import Verif.Props.NetgroupsWire
import Verif.Spec.NetgroupSearch
import Verif.Props.NetgroupSearch
import Verif.Spec.NetgroupsObject
import Verif.Props.NetgroupsObject
import Verif.Model.ApiDescAttrs
import Verif.Spec.DescWire
import Verif.Props.DescWire
import Verif.Model.Typed
import Verif.Spec.Typed
import Verif.Props.Typed
import Verif.Model.ApiTls
import Verif.Spec.StartTlsWire
import Verif.Props.StartTlsWire
import Verif.Model.ApiValidate
import Verif.Spec.ValidatedWire
import Verif.Props.ValidatedWire
import Verif.Model.ClassQueries
import Verif.Spec.ClassQueries
import Verif.Props.ClassQueries
