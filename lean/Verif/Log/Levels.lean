import Verif.Log.Props
import Verif.Conf.Model
/-
C151: the levels and the facility are the same for the configuration, for the messages and for the system's log.
-/
namespace Verif.Log

/-- RFC 5424, section 6.2.1: the numbers of the severities and the facilities that the program names. -/
def rfc5424 : List (String × Nat) := [("error", 3), ("warning", 4), ("info", 6), ("debug", 7)]

/-- **C151.** The level that each word of the configuration stands for is the one that messages of that name have, and the number that the system's log gives to it; so is the
facility of the messages until the configuration is in force. -/
theorem C151_numbers : Verif.Conf.levelWords = rfc5424.map (fun w => (Verif.Conf.lit w.1, w.2)) ∧
    [LOG_ERR, LOG_WARNING, LOG_INFO, LOG_DEBUG] = rfc5424.map (·.2) ∧
    [LOG_ERR, LOG_WARNING, LOG_INFO, LOG_DEBUG].all (fun l => levels.any (·.1 = l)) ∧
    Verif.Conf.facilityWords.lookup (Verif.Conf.lit "daemon") = some LOG_DAEMON := by decide +kernel

end Verif.Log
