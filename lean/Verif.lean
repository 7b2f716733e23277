import Verif.Model.Scalars
import Verif.Proofs.Text
import Verif.Proofs.Scalars
import Verif.Props.Scalars
import Verif.Spec.CreditCard
import Verif.Props.Luhn
import Verif.Proofs.CreditCard
import Verif.Props.CreditCard
import Verif.Model.Tree
import Verif.Spec.Tree
import Verif.Proofs.TreeProps
import Verif.Props.Tree
import Verif.Spec.SetFlat
import Verif.Proofs.SetFlat
import Verif.Props.SetFlat
import Verif.Model.Paths
import Verif.Spec.Paths
import Verif.Proofs.Paths
import Verif.Proofs.Slices
import Verif.Props.Paths
import Verif.Model.Nodes
import Verif.Spec.Nodes
import Verif.Proofs.Nodes
import Verif.Props.Nodes
import Verif.Model.PyList
import Verif.Model.ListOps
import Verif.Spec.Lists
import Verif.Proofs.Lists
import Verif.Props.Lists
import Verif.Spec.PyLists
import Verif.Proofs.PyLists
import Verif.Props.PyLists
import Verif.Model.Mappings
import Verif.Spec.Mappings
import Verif.Proofs.Mappings
import Verif.Props.Mappings
import Verif.Model.Validate
import Verif.Spec.Validate
import Verif.Proofs.Validate
import Verif.Props.Validate
import Verif.Model.Messages
import Verif.Spec.Messages
import Verif.Props.Messages
import Verif.Model.Validators
import Verif.Spec.Equality
import Verif.Proofs.Equality
import Verif.Model.Values
import Verif.Spec.Validators
import Verif.Proofs.Validators
import Verif.Props.Validators
import Verif.Spec.Values
import Verif.Proofs.Values
import Verif.Props.Values
import Verif.Model.Properties
import Verif.Spec.Properties
import Verif.Proofs.Properties
import Verif.Props.Properties
import Verif.Model.Forms
import Verif.Spec.Forms
import Verif.Proofs.Forms
import Verif.Props.Forms
import Verif.Model.Classes
import Verif.Spec.Classes
import Verif.Proofs.Classes
import Verif.Props.Classes
import Verif.Model.CompoundInit
import Verif.Spec.CompoundInit
import Verif.Proofs.CompoundInit
import Verif.Props.CompoundInit
import Verif.Model.Compounds
import Verif.Spec.Compounds
import Verif.Proofs.Compounds
import Verif.Props.Compounds
import Verif.Model.Refs
import Verif.Spec.Refs
import Verif.Proofs.Refs
import Verif.Props.Refs
import Verif.Model.RefChain
import Verif.Props.RefChain
import Verif.Model.RefForm
import Verif.Props.RefForm
import Verif.Model.Trool
import Verif.Spec.Trool
import Verif.Props.Trool
import Verif.Model.Escape
import Verif.Spec.Escape
import Verif.Proofs.Escape
import Verif.Model.Markup
import Verif.Spec.Markup
import Verif.Proofs.Markup
import Verif.Proofs.MarkupTags
import Verif.Proofs.MarkupIds
import Verif.Proofs.MarkupRender
import Verif.Proofs.MarkupOrder
import Verif.Props.Markup
import Verif.Props.Rendering
import Verif.Model.Context
import Verif.Spec.Context
import Verif.Proofs.Context
import Verif.Props.Context
import Verif.Model.Heap
import Verif.Spec.Heap
import Verif.Proofs.Heap
import Verif.Props.Heap
import Verif.Model.Page
import Verif.Spec.Submit
import Verif.Proofs.Submit
import Verif.Props.Submit
import Verif.Model.Numbers
import Verif.Spec.Numbers
import Verif.Proofs.Numbers
import Verif.Props.Numbers
import Verif.Spec.PathText
import Verif.Proofs.PathText
import Verif.Props.PathText
import Verif.Model.TagStack
import Verif.Spec.TagStack
import Verif.Spec.TagTemplate
import Verif.Proofs.TagStack
import Verif.Proofs.TagTemplate
import Verif.Props.TagStack
import Verif.Props.ValueSet
import Verif.Props.ArrayFlat
import Verif.Model.Shared
import Verif.Proofs.Shared
import Verif.Props.Shared
import Verif.Model.Genshi
import Verif.Spec.Genshi
import Verif.Proofs.Genshi
import Verif.Props.Genshi
import Verif.Model.CardElement
import Verif.Spec.CardElement
import Verif.Props.CardElement
import Verif.Model.Attributes
import Verif.Spec.Attributes
import Verif.Proofs.Attributes
import Verif.Props.Attributes
import Verif.Model.Deferred
import Verif.Spec.Deferred
import Verif.Proofs.Deferred
import Verif.Props.Deferred
import Verif.Spec.Rejected
import Verif.Proofs.Rejected
import Verif.Props.Rejected
import Verif.Spec.Order
import Verif.Proofs.Order
import Verif.Props.Order
import Verif.Model.FormValidation
import Verif.Spec.FormValidation
import Verif.Proofs.FormValidation
import Verif.Props.FormValidation
import Verif.Model.FlatSources
import Verif.Props.FlatSources
import Verif.Spec.Submissions
import Verif.Proofs.Submissions
import Verif.Props.Submissions
import Verif.Model.HalfWay
import Verif.Spec.HalfWay
import Verif.Proofs.HalfWay
import Verif.Props.HalfWay
import Verif.Model.RichTree
import Verif.Spec.RichTree
import Verif.Proofs.RichTree
import Verif.Proofs.Noise
import Verif.Proofs.RichFlat
import Verif.Proofs.RichBfs
import Verif.Props.RichTree
import Verif.Model.TreeRules
import Verif.Spec.TreeRules
import Verif.Proofs.TreeRules
import Verif.Proofs.TreeRules2
import Verif.Props.TreeRules
import Verif.Spec.Parts
import Verif.Spec.Choices
import Verif.Proofs.Parts
import Verif.Proofs.Parts2
import Verif.Proofs.Choices
import Verif.Props.Parts
import Verif.Model.MappingReads
import Verif.Spec.MappingOps
import Verif.Props.MappingOps
import Verif.Model.Edits
import Verif.Spec.Edits
import Verif.Proofs.Edits
import Verif.Proofs.Edits2
import Verif.Proofs.Edits3
import Verif.Props.Edits
import Verif.Spec.Cycle
import Verif.Proofs.Cycle
import Verif.Proofs.Cycle2
import Verif.Proofs.Cycle3
import Verif.Props.Cycle
import Verif.Model.Tidying
import Verif.Spec.Tidying
import Verif.Proofs.Tidying
import Verif.Proofs.Tidying2
import Verif.Proofs.Tidying3
import Verif.Proofs.Tidying4
import Verif.Proofs.Tidying5
import Verif.Proofs.Tidying6
import Verif.Props.Tidying
import Verif.Model.Floats
import Verif.Spec.Floats
import Verif.Proofs.Floats
import Verif.Proofs.Floats2
import Verif.Proofs.Floats3
import Verif.Proofs.Floats4
import Verif.Proofs.Floats5
import Verif.Props.Floats
import Verif.Props.FloatsStored
import Verif.Proofs.Hostile
import Verif.Props.Hostile
import Verif.Proofs.ValidateRaises
import Verif.Props.Completions
import Verif.Spec.RichSubmissions
import Verif.Proofs.RichSubmissions
import Verif.Proofs.RichSubmissions2
import Verif.Proofs.RichSubmissions3
import Verif.Props.RichSubmissions
import Verif.Spec.RichCycle
import Verif.Proofs.RichCycle
import Verif.Props.RichCycle
import Verif.Props.RichPage
import Verif.Model.RichValues
import Verif.Spec.RichValues
import Verif.Proofs.RichValues
import Verif.Props.RichValues
import Verif.Spec.Stored
import Verif.Proofs.Stored
import Verif.Proofs.Stored2
import Verif.Props.Stored
import Verif.Spec.Records
import Verif.Proofs.Records
import Verif.Props.Records
import Verif.Conformance.Base
import Verif.Conformance.Paths
import Verif.Conformance.Lists
import Verif.Conformance.Arrays
import Verif.Conformance.Scalars
import Verif.Conformance.Compounds
import Verif.Conformance.Dicts
import Verif.Conformance.Transforms
import Verif.Conformance.Validation
import Verif.Conformance.Tags
import Verif.Conformance.Elements
import Verif.Conformance.Floats
import Verif.Model.Truth
import Verif.Spec.Truth
import Verif.Proofs.Truth
import Verif.Props.Truth
import Verif.Model.RichNodes
import Verif.Spec.RichNodes
import Verif.Proofs.RichNodes
import Verif.Props.RichNodes
import Verif.Model.RichValidation
import Verif.Spec.RichValidation
import Verif.Proofs.RichValidation
import Verif.Props.RichValidation
import Verif.Model.RichNodesOf
import Verif.Spec.SubmittedDates
import Verif.Proofs.SubmittedDates
import Verif.Props.SubmittedDates
import Verif.Model.RichEdits
import Verif.Spec.RichEdits
import Verif.Proofs.RichEdits
import Verif.Proofs.RichEdits2
import Verif.Proofs.RichEdits3
import Verif.Props.RichEdits
import Verif.Spec.RichHalfWay
import Verif.Proofs.RichHalfWay
import Verif.Props.RichHalfWay
import Verif.Spec.SubmittedRows
import Verif.Proofs.SubmittedRows
import Verif.Props.SubmittedRows
import Verif.Props.Choices
import Verif.Model.RichRules
import Verif.Spec.RichRules
import Verif.Proofs.RichRules
import Verif.Proofs.RichRules2
import Verif.Proofs.RichRules3
import Verif.Props.RichRules
import Verif.Model.FormParts
import Verif.Proofs.FormParts
import Verif.Props.FormParts
