import Verif.Dom.Props
import Verif.Doc.Props
import Verif.Dom.ClassProps
import Verif.WebDriver.Props
import Verif.Selector.Props
import Verif.Cascade.Props
import Verif.RuleIndex.Props
import Verif.Rules.Props
import Verif.Counter.StyleProps
import Verif.Counter.ScopeProps
import Verif.Xml.Props
import Verif.Xml.DeclProps
import Verif.Page.Props
import Verif.Media.Props
import Verif.Css.ParserProps
import Verif.Css.LexProps
import Verif.Decl.Props
import Verif.Table.Props
import Verif.Paginate.Props
import Verif.Paginate.MarginProps
import Verif.Sizing.Props
import Verif.Running.Props
import Verif.Build.Props
import Verif.Load.Props
import Verif.Run.Props
import Verif.Script.Props
import Verif.Values.Props
import Verif.Values.CalcProps
import Verif.Values.DisplayProps
import Verif.Values.SidesProps
import Verif.Values.ColorProps
import Verif.Registry.Props
import Verif.Html.Props
import Verif.Tree.Props
import Verif.Tree.AllProps
import Verif.Flex.Props
import Verif.Face.Props
import Verif.Cells.Props
import Verif.SelParse.Model
import Verif.SelParse.Spec
import Verif.SelParse.Loose
import Verif.SelParse.Ends
import Verif.SelParse.Faults
import Verif.SelParse.Mono
import Verif.SelParse.AnbRead
import Verif.SelParse.AttrRead
import Verif.SelParse.Meaning
import Verif.SelParse.Reads
import Verif.SelParse.Whole
import Verif.SelParse.Props
import Verif.Paint.Model
import Verif.Paint.Spec
import Verif.Paint.Once
import Verif.Paint.Inside
import Verif.Paint.Order
import Verif.Paint.Whole
import Verif.Paint.Props
import Verif.Short.Model
import Verif.Short.Spec
import Verif.Short.Lemmas
import Verif.Short.FlexProps
import Verif.Short.RadiusProps
import Verif.Short.ListProps
import Verif.Short.OutlineProps
import Verif.Short.FontProps
import Verif.Short.SrcProps
import Verif.Short.PositionProps
import Verif.Transform.Props
import Verif.Transform.OriginProps
import Verif.Transform.SvgProps
import Verif.Svg.Props
import Verif.Svg.Bounds
import Verif.Svg.Views
import Verif.Service.Print
import Verif.Service.Flow
import Verif.Keyword.PositionProps
import Verif.Sheet.Command
import Verif.Browser.Props
import Verif.Hue.Props
import Verif.Clip.ReadProps
import Verif.Clip.PlaceProps
import Verif.Oof.Props
import Verif.Fonts.Props
import Verif.Hints.Props
import Verif.Basis.Props
import Verif.Baseline.Props
import Verif.Seams.Props
import Verif.Rows.Props
import Verif.Rims.Props
import Verif.Format.Props
import Verif.Mime.Props
import Verif.Coerce.Props
import Verif.Across.Props
import Verif.Forms.Props
