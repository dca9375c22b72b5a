import Verif.Model.Main
import Verif.Props.C01
import Verif.Props.C02
import Verif.Props.C31
import Verif.Props.C34
import Verif.Props.C38
import Verif.Props.C39
import Verif.Props.C32
import Verif.Props.C33
import Verif.Props.C35
import Verif.Props.C13
import Verif.Props.C14
import Verif.Props.C15
import Verif.Props.C16
import Verif.Props.C17
import Verif.Props.C06
import Verif.Props.C07
import Verif.Props.C08
import Verif.Props.C03
import Verif.Props.C04
import Verif.Props.C05
import Verif.Props.C36
import Verif.Props.C37
import Verif.Props.C21
import Verif.Props.C22
import Verif.Props.C23
import Verif.Props.C24
import Verif.Props.C09
import Verif.Props.C10
import Verif.Props.C11
import Verif.Props.C12
import Verif.Props.C18
import Verif.Props.C19
import Verif.Props.C20
import Verif.Props.C25
import Verif.Props.C26
import Verif.Props.C27
import Verif.Props.C28
import Verif.Props.C29
import Verif.Props.C30
import Verif.Props.C40
import Verif.Props.C41
import Verif.Spec.Extra
import Verif.Proof.ProgExtra
import Verif.Proof.ProgWhole
import Verif.Props.C42
import Verif.Props.C43
import Verif.Props.C44
import Verif.Proof.Comp6502
import Verif.Proof.CompFirst
import Verif.Proof.CompSecond
import Verif.Props.C45
import Verif.Proof.Comp6800
import Verif.Props.C46
import Verif.Proof.CompZ80
import Verif.Props.C47
import Verif.Props.C48
import Verif.Spec.Listing
import Verif.Proof.Lay
import Verif.Proof.Slim
import Verif.Proof.Rows
import Verif.Proof.Show
import Verif.Proof.ShowL
import Verif.Props.C49
import Verif.Props.C50
import Verif.Proof.Tidy
import Verif.Spec.ProgList
import Verif.Proof.ProgList
import Verif.Props.C51
import Verif.Props.C52
import Verif.Spec.Symbols
import Verif.Proof.Table
import Verif.Props.C53
import Verif.Spec.Rank
import Verif.Proof.Rank
import Verif.Props.C54
import Verif.Props.C55
import Verif.Props.C56
