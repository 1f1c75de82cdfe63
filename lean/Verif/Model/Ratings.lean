import Verif.Model.Tag
import Verif.Model.Rating
/-!
# The ratings of a generic tag
-/
namespace Lofty.Item

/-- `Tag::ratings`, tag/mod.rs 320-323.  `custom` is the user's mapping of ratings. -/
def Tag.ratings (custom : Rating.Provider) (t : Tag) : List Rating.Pop := (t.getStrings .Popularimeter).filterMap (Rating.fromStr custom)

end Lofty.Item
