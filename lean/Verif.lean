import Verif.All
import Verif.Audit
