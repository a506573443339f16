import Verif.AllProps
import Verif.Audit
