import Verif.Model.View
import Verif.Float.Instance
/-!
# The tests of the repository for views, run on the model
-/
set_option maxRecDepth 100000
namespace Swrs.Conformance.View

local instance : MapPol := ⟨true, true⟩
local instance : Floats := ieeeFloats.toFloats

/-! `parse_android_view` — tests/view_parser.rs:6 -/
example : (AndroidView.parse (s% "{\"adSize\":\"\",\"adUnitId\":\"\",\"alpha\":1.0,\"checked\":0,\"choiceMode\":0,\"clickable\":1,\"customView\":\"\",\"dividerHeight\":1,\"enabled\":1,\"firstDayOfWeek\":1,\"id\":\"linear_title\",\"image\":{\"resName\":\"default_image\",\"rotate\":0,\"scaleType\":\"CENTER\"},\"indeterminate\":\"false\",\"index\":0,\"layout\":{\"backgroundColor\":-1,\"gravity\":0,\"height\":-2,\"layoutGravity\":0,\"marginBottom\":0,\"marginLeft\":0,\"marginRight\":0,\"marginTop\":0,\"orientation\":0,\"paddingBottom\":0,\"paddingLeft\":0,\"paddingRight\":0,\"paddingTop\":0,\"weight\":0,\"weightSum\":0,\"width\":-1},\"max\":100,\"parent\":\"root\",\"parentType\":0,\"preId\":\"linear_title\",\"preIndex\":0,\"preParent\":\"root\",\"preParentType\":0,\"progress\":0,\"progressStyle\":\"?android:progressBarStyle\",\"scaleX\":1.0,\"scaleY\":1.0,\"spinnerMode\":1,\"text\":{\"hint\":\"\",\"hintColor\":-10453621,\"imeOption\":0,\"inputType\":1,\"line\":0,\"singleLine\":0,\"text\":\"\",\"textColor\":-16777216,\"textFont\":\"default_font\",\"textSize\":12,\"textType\":0},\"translationX\":0.0,\"translationY\":0.0,\"type\":0}")).isSome = true := by decide +kernel

/-! `parse_view` — tests/view_parser.rs:18 -/
example : ((View.parse (s% "@main.xml\n{\"adSize\":\"\",\"adUnitId\":\"\",\"alpha\":1.0,\"checked\":0,\"choiceMode\":0,\"clickable\":1,\"customView\":\"\",\"dividerHeight\":1,\"enabled\":1,\"firstDayOfWeek\":1,\"id\":\"vscroll1\",\"image\":{\"rotate\":0,\"scaleType\":\"CENTER\"},\"indeterminate\":\"false\",\"index\":0,\"layout\":{\"backgroundColor\":16777215,\"gravity\":0,\"height\":-2,\"layoutGravity\":0,\"marginBottom\":8,\"marginLeft\":0,\"marginRight\":0,\"marginTop\":0,\"orientation\":-1,\"paddingBottom\":0,\"paddingLeft\":0,\"paddingRight\":0,\"paddingTop\":0,\"weight\":1,\"weightSum\":0,\"width\":-1},\"max\":100,\"parent\":\"root\",\"parentType\":0,\"preId\":\"vscroll1\",\"preIndex\":0,\"preParentType\":0,\"progress\":0,\"progressStyle\":\"?android:progressBarStyle\",\"scaleX\":1.0,\"scaleY\":1.0,\"spinnerMode\":1,\"text\":{\"hint\":\"\",\"hintColor\":-10453621,\"imeOption\":0,\"inputType\":1,\"line\":0,\"singleLine\":0,\"text\":\"\",\"textColor\":-16777216,\"textFont\":\"default_font\",\"textSize\":12,\"textType\":0},\"translationX\":0.0,\"translationY\":0.0,\"type\":12}\n{\"adSize\":\"\",\"adUnitId\":\"\",\"alpha\":1.0,\"checked\":0,\"choiceMode\":0,\"clickable\":1,\"customView\":\"\",\"dividerHeight\":1,\"enabled\":1,\"firstDayOfWeek\":1,\"id\":\"vscroll2\",\"image\":{\"rotate\":0,\"scaleType\":\"CENTER\"},\"indeterminate\":\"false\",\"index\":1,\"layout\":{\"backgroundColor\":16777215,\"gravity\":0,\"height\":-2,\"layoutGravity\":0,\"marginBottom\":0,\"marginLeft\":0,\"marginRight\":0,\"marginTop\":8,\"orientation\":-1,\"paddingBottom\":0,\"paddingLeft\":0,\"paddingRight\":0,\"paddingTop\":0,\"weight\":1,\"weightSum\":0,\"width\":-1},\"max\":100,\"parent\":\"root\",\"parentType\":0,\"preId\":\"vscroll2\",\"preIndex\":0,\"preParentType\":0,\"progress\":0,\"progressStyle\":\"?android:progressBarStyle\",\"scaleX\":1.0,\"scaleY\":1.0,\"spinnerMode\":1,\"text\":{\"hint\":\"\",\"hintColor\":-10453621,\"imeOption\":0,\"inputType\":1,\"line\":0,\"singleLine\":0,\"text\":\"\",\"textColor\":-16777216,\"textFont\":\"default_font\",\"textSize\":12,\"textType\":0},\"translationX\":0.0,\"translationY\":0.0,\"type\":12}\n{\"adSize\":\"\",\"adUnitId\":\"\",\"alpha\":1.0,\"checked\":0,\"choiceMode\":0,\"clickable\":1,\"customView\":\"\",\"dividerHeight\":1,\"enabled\":1,\"firstDayOfWeek\":1,\"id\":\"linear1\",\"image\":{\"rotate\":0,\"scaleType\":\"CENTER\"},\"indeterminate\":\"false\",\"index\":0,\"layout\":{\"backgroundColor\":16777215,\"gravity\":0,\"height\":-2,\"layoutGravity\":0,\"marginBottom\":0,\"marginLeft\":0,\"marginRight\":0,\"marginTop\":0,\"orientation\":1,\"paddingBottom\":8,\"paddingLeft\":8,\"paddingRight\":8,\"paddingTop\":8,\"weight\":0,\"weightSum\":0,\"width\":-1},\"max\":100,\"parent\":\"vscroll1\",\"parentType\":12,\"preId\":\"linear1\",\"preIndex\":0,\"preParentType\":0,\"progress\":0,\"progressStyle\":\"?android:progressBarStyle\",\"scaleX\":1.0,\"scaleY\":1.0,\"spinnerMode\":1,\"text\":{\"hint\":\"\",\"hintColor\":-10453621,\"imeOption\":0,\"inputType\":1,\"line\":0,\"singleLine\":0,\"text\":\"\",\"textColor\":-16777216,\"textFont\":\"default_font\",\"textSize\":12,\"textType\":0},\"translationX\":0.0,\"translationY\":0.0,\"type\":0}\n{\"adSize\":\"\",\"adUnitId\":\"\",\"alpha\":1.0,\"checked\":0,\"choiceMode\":0,\"clickable\":1,\"customView\":\"\",\"dividerHeight\":1,\"enabled\":1,\"firstDayOfWeek\":1,\"id\":\"textview2\",\"image\":{\"rotate\":0,\"scaleType\":\"CENTER\"},\"indeterminate\":\"false\",\"index\":0,\"layout\":{\"backgroundColor\":16777215,\"gravity\":0,\"height\":-2,\"layoutGravity\":0,\"marginBottom\":0,\"marginLeft\":0,\"marginRight\":0,\"marginTop\":0,\"orientation\":-1,\"paddingBottom\":8,\"paddingLeft\":8,\"paddingRight\":8,\"paddingTop\":8,\"weight\":0,\"weightSum\":0,\"width\":-2},\"max\":100,\"parent\":\"linear1\",\"parentType\":0,\"preId\":\"textview2\",\"preIndex\":0,\"preParentType\":0,\"progress\":0,\"progressStyle\":\"?android:progressBarStyle\",\"scaleX\":1.0,\"scaleY\":1.0,\"spinnerMode\":1,\"text\":{\"hint\":\"\",\"hintColor\":-10453621,\"imeOption\":0,\"inputType\":1,\"line\":0,\"singleLine\":0,\"text\":\"CPU Info\",\"textColor\":-16777216,\"textFont\":\"default_font\",\"textSize\":12,\"textType\":0},\"translationX\":0.0,\"translationY\":0.0,\"type\":4}\n{\"adSize\":\"\",\"adUnitId\":\"\",\"alpha\":1.0,\"checked\":0,\"choiceMode\":0,\"clickable\":1,\"customView\":\"\",\"dividerHeight\":1,\"enabled\":1,\"firstDayOfWeek\":1,\"id\":\"cpuinfo\",\"image\":{\"rotate\":0,\"scaleType\":\"CENTER\"},\"indeterminate\":\"false\",\"index\":1,\"layout\":{\"backgroundColor\":16777215,\"gravity\":0,\"height\":-2,\"layoutGravity\":0,\"marginBottom\":0,\"marginLeft\":0,\"marginRight\":0,\"marginTop\":0,\"orientation\":-1,\"paddingBottom\":8,\"paddingLeft\":8,\"paddingRight\":8,\"paddingTop\":8,\"weight\":0,\"weightSum\":0,\"width\":-2},\"max\":100,\"parent\":\"linear1\",\"parentType\":0,\"preId\":\"\",\"preIndex\":0,\"preParentType\":0,\"progress\":0,\"progressStyle\":\"?android:progressBarStyle\",\"scaleX\":1.0,\"scaleY\":1.0,\"spinnerMode\":1,\"text\":{\"hint\":\"\",\"hintColor\":-10453621,\"imeOption\":0,\"inputType\":1,\"line\":0,\"singleLine\":0,\"text\":\"TextView\",\"textColor\":-16777216,\"textFont\":\"default_font\",\"textSize\":12,\"textType\":0},\"translationX\":0.0,\"translationY\":0.0,\"type\":4}\n{\"adSize\":\"\",\"adUnitId\":\"\",\"alpha\":1.0,\"checked\":0,\"choiceMode\":0,\"clickable\":1,\"customView\":\"\",\"dividerHeight\":1,\"enabled\":1,\"firstDayOfWeek\":1,\"id\":\"linear2\",\"image\":{\"rotate\":0,\"scaleType\":\"CENTER\"},\"indeterminate\":\"false\",\"index\":0,\"layout\":{\"backgroundColor\":16777215,\"gravity\":0,\"height\":-2,\"layoutGravity\":0,\"marginBottom\":0,\"marginLeft\":0,\"marginRight\":0,\"marginTop\":0,\"orientation\":1,\"paddingBottom\":8,\"paddingLeft\":8,\"paddingRight\":8,\"paddingTop\":8,\"weight\":0,\"weightSum\":0,\"width\":-1},\"max\":100,\"parent\":\"vscroll2\",\"parentType\":12,\"preId\":\"linear2\",\"preIndex\":0,\"preParentType\":0,\"progress\":0,\"progressStyle\":\"?android:progressBarStyle\",\"scaleX\":1.0,\"scaleY\":1.0,\"spinnerMode\":1,\"text\":{\"hint\":\"\",\"hintColor\":-10453621,\"imeOption\":0,\"inputType\":1,\"line\":0,\"singleLine\":0,\"text\":\"\",\"textColor\":-16777216,\"textFont\":\"default_font\",\"textSize\":12,\"textType\":0},\"translationX\":0.0,\"translationY\":0.0,\"type\":0}\n{\"adSize\":\"\",\"adUnitId\":\"\",\"alpha\":1.0,\"checked\":0,\"choiceMode\":0,\"clickable\":1,\"customView\":\"\",\"dividerHeight\":1,\"enabled\":1,\"firstDayOfWeek\":1,\"id\":\"textview3\",\"image\":{\"rotate\":0,\"scaleType\":\"CENTER\"},\"indeterminate\":\"false\",\"index\":0,\"layout\":{\"backgroundColor\":16777215,\"gravity\":0,\"height\":-2,\"layoutGravity\":0,\"marginBottom\":0,\"marginLeft\":0,\"marginRight\":0,\"marginTop\":0,\"orientation\":-1,\"paddingBottom\":8,\"paddingLeft\":8,\"paddingRight\":8,\"paddingTop\":8,\"weight\":0,\"weightSum\":0,\"width\":-2},\"max\":100,\"parent\":\"linear2\",\"parentType\":0,\"preId\":\"textview3\",\"preIndex\":0,\"preParentType\":0,\"progress\":0,\"progressStyle\":\"?android:progressBarStyle\",\"scaleX\":1.0,\"scaleY\":1.0,\"spinnerMode\":1,\"text\":{\"hint\":\"\",\"hintColor\":-10453621,\"imeOption\":0,\"inputType\":1,\"line\":0,\"singleLine\":0,\"text\":\"RAM Info\",\"textColor\":-16777216,\"textFont\":\"default_font\",\"textSize\":12,\"textType\":0},\"translationX\":0.0,\"translationY\":0.0,\"type\":4}\n{\"adSize\":\"\",\"adUnitId\":\"\",\"alpha\":1.0,\"checked\":0,\"choiceMode\":0,\"clickable\":1,\"customView\":\"\",\"dividerHeight\":1,\"enabled\":1,\"firstDayOfWeek\":1,\"id\":\"raminfo\",\"image\":{\"rotate\":0,\"scaleType\":\"CENTER\"},\"indeterminate\":\"false\",\"index\":1,\"layout\":{\"backgroundColor\":16777215,\"gravity\":0,\"height\":-2,\"layoutGravity\":0,\"marginBottom\":0,\"marginLeft\":0,\"marginRight\":0,\"marginTop\":0,\"orientation\":-1,\"paddingBottom\":8,\"paddingLeft\":8,\"paddingRight\":8,\"paddingTop\":8,\"weight\":0,\"weightSum\":0,\"width\":-2},\"max\":100,\"parent\":\"linear2\",\"parentType\":0,\"preId\":\"\",\"preIndex\":0,\"preParentType\":0,\"progress\":0,\"progressStyle\":\"?android:progressBarStyle\",\"scaleX\":1.0,\"scaleY\":1.0,\"spinnerMode\":1,\"text\":{\"hint\":\"\",\"hintColor\":-10453621,\"imeOption\":0,\"inputType\":1,\"line\":0,\"singleLine\":0,\"text\":\"TextView\",\"textColor\":-16777216,\"textFont\":\"default_font\",\"textSize\":12,\"textType\":0},\"translationX\":0.0,\"translationY\":0.0,\"type\":4}\n\n@main.xml_fab\n{\"adSize\":\"\",\"adUnitId\":\"\",\"alpha\":1.0,\"checked\":0,\"choiceMode\":0,\"clickable\":1,\"customView\":\"\",\"dividerHeight\":1,\"enabled\":1,\"firstDayOfWeek\":1,\"id\":\"_fab\",\"image\":{\"rotate\":0,\"scaleType\":\"CENTER\"},\"indeterminate\":\"false\",\"index\":0,\"layout\":{\"backgroundColor\":16777215,\"gravity\":0,\"height\":-2,\"layoutGravity\":85,\"marginBottom\":16,\"marginLeft\":16,\"marginRight\":16,\"marginTop\":16,\"orientation\":-1,\"paddingBottom\":0,\"paddingLeft\":0,\"paddingRight\":0,\"paddingTop\":0,\"weight\":0,\"weightSum\":0,\"width\":-2},\"max\":100,\"parentType\":-1,\"preIndex\":0,\"preParentType\":0,\"progress\":0,\"progressStyle\":\"?android:progressBarStyle\",\"scaleX\":1.0,\"scaleY\":1.0,\"spinnerMode\":1,\"text\":{\"hint\":\"\",\"hintColor\":-10453621,\"imeOption\":0,\"inputType\":1,\"line\":0,\"singleLine\":0,\"text\":\"\",\"textColor\":-16777216,\"textFont\":\"default_font\",\"textSize\":12,\"textType\":0},\"translationX\":0.0,\"translationY\":0.0,\"type\":16}")).toOption).isSome = true := by decide +kernel

/-! `reconstruct_android_view` — tests/view_parser.rs:41 -/
example : (AndroidView.parse (s% "{\"adSize\":\"\",\"adUnitId\":\"\",\"alpha\":1.0,\"checked\":0,\"choiceMode\":0,\"clickable\":1,\"customView\":\"\",\"dividerHeight\":1,\"enabled\":1,\"firstDayOfWeek\":1,\"id\":\"linear_title\",\"image\":{\"resName\":\"default_image\",\"rotate\":0,\"scaleType\":\"CENTER\"},\"indeterminate\":\"false\",\"index\":0,\"layout\":{\"backgroundColor\":-1,\"gravity\":0,\"height\":-2,\"layoutGravity\":0,\"marginBottom\":0,\"marginLeft\":0,\"marginRight\":0,\"marginTop\":0,\"orientation\":0,\"paddingBottom\":0,\"paddingLeft\":0,\"paddingRight\":0,\"paddingTop\":0,\"weight\":0,\"weightSum\":0,\"width\":-1},\"max\":100,\"parent\":\"root\",\"parentType\":0,\"preId\":\"linear_title\",\"preIndex\":0,\"preParent\":\"root\",\"preParentType\":0,\"progress\":0,\"progressStyle\":\"?android:progressBarStyle\",\"scaleX\":1.0,\"scaleY\":1.0,\"spinnerMode\":1,\"text\":{\"hint\":\"\",\"hintColor\":-10453621,\"imeOption\":0,\"inputType\":1,\"line\":0,\"singleLine\":0,\"text\":\"\",\"textColor\":-16777216,\"textFont\":\"default_font\",\"textSize\":12,\"textType\":0},\"translationX\":0.0,\"translationY\":0.0,\"type\":0}")).map AndroidView.reconstruct = some (s% "{\"adSize\":\"\",\"adUnitId\":\"\",\"alpha\":1.0,\"checked\":0,\"choiceMode\":0,\"clickable\":1,\"customView\":\"\",\"dividerHeight\":1,\"enabled\":1,\"firstDayOfWeek\":1,\"id\":\"linear_title\",\"image\":{\"resName\":\"default_image\",\"rotate\":0,\"scaleType\":\"CENTER\"},\"indeterminate\":\"false\",\"index\":0,\"layout\":{\"backgroundColor\":-1,\"gravity\":0,\"height\":-2,\"layoutGravity\":0,\"marginBottom\":0,\"marginLeft\":0,\"marginRight\":0,\"marginTop\":0,\"orientation\":0,\"paddingBottom\":0,\"paddingLeft\":0,\"paddingRight\":0,\"paddingTop\":0,\"weight\":0,\"weightSum\":0,\"width\":-1},\"max\":100,\"parent\":\"root\",\"parentType\":0,\"preId\":\"linear_title\",\"preIndex\":0,\"preParent\":\"root\",\"preParentType\":0,\"progress\":0,\"progressStyle\":\"?android:progressBarStyle\",\"scaleX\":1.0,\"scaleY\":1.0,\"spinnerMode\":1,\"text\":{\"hint\":\"\",\"hintColor\":-10453621,\"imeOption\":0,\"inputType\":1,\"line\":0,\"singleLine\":0,\"text\":\"\",\"textColor\":-16777216,\"textFont\":\"default_font\",\"textSize\":12,\"textType\":0},\"translationX\":0.0,\"translationY\":0.0,\"type\":0}") := by decide +kernel

/-! `reconstruct_view` — tests/view_parser.rs:54 -/
example : ((View.parse (s% "@main.xml\n{\"adSize\":\"\",\"adUnitId\":\"\",\"alpha\":1.0,\"checked\":0,\"choiceMode\":0,\"clickable\":1,\"customView\":\"\",\"dividerHeight\":1,\"enabled\":1,\"firstDayOfWeek\":1,\"id\":\"vscroll1\",\"image\":{\"rotate\":0,\"scaleType\":\"CENTER\"},\"indeterminate\":\"false\",\"index\":0,\"layout\":{\"backgroundColor\":16777215,\"gravity\":0,\"height\":-2,\"layoutGravity\":0,\"marginBottom\":8,\"marginLeft\":0,\"marginRight\":0,\"marginTop\":0,\"orientation\":-1,\"paddingBottom\":0,\"paddingLeft\":0,\"paddingRight\":0,\"paddingTop\":0,\"weight\":1,\"weightSum\":0,\"width\":-1},\"max\":100,\"parent\":\"root\",\"parentType\":0,\"preId\":\"vscroll1\",\"preIndex\":0,\"preParentType\":0,\"progress\":0,\"progressStyle\":\"?android:progressBarStyle\",\"scaleX\":1.0,\"scaleY\":1.0,\"spinnerMode\":1,\"text\":{\"hint\":\"\",\"hintColor\":-10453621,\"imeOption\":0,\"inputType\":1,\"line\":0,\"singleLine\":0,\"text\":\"\",\"textColor\":-16777216,\"textFont\":\"default_font\",\"textSize\":12,\"textType\":0},\"translationX\":0.0,\"translationY\":0.0,\"type\":12}\n{\"adSize\":\"\",\"adUnitId\":\"\",\"alpha\":1.0,\"checked\":0,\"choiceMode\":0,\"clickable\":1,\"customView\":\"\",\"dividerHeight\":1,\"enabled\":1,\"firstDayOfWeek\":1,\"id\":\"vscroll2\",\"image\":{\"rotate\":0,\"scaleType\":\"CENTER\"},\"indeterminate\":\"false\",\"index\":1,\"layout\":{\"backgroundColor\":16777215,\"gravity\":0,\"height\":-2,\"layoutGravity\":0,\"marginBottom\":0,\"marginLeft\":0,\"marginRight\":0,\"marginTop\":8,\"orientation\":-1,\"paddingBottom\":0,\"paddingLeft\":0,\"paddingRight\":0,\"paddingTop\":0,\"weight\":1,\"weightSum\":0,\"width\":-1},\"max\":100,\"parent\":\"root\",\"parentType\":0,\"preId\":\"vscroll2\",\"preIndex\":0,\"preParentType\":0,\"progress\":0,\"progressStyle\":\"?android:progressBarStyle\",\"scaleX\":1.0,\"scaleY\":1.0,\"spinnerMode\":1,\"text\":{\"hint\":\"\",\"hintColor\":-10453621,\"imeOption\":0,\"inputType\":1,\"line\":0,\"singleLine\":0,\"text\":\"\",\"textColor\":-16777216,\"textFont\":\"default_font\",\"textSize\":12,\"textType\":0},\"translationX\":0.0,\"translationY\":0.0,\"type\":12}\n{\"adSize\":\"\",\"adUnitId\":\"\",\"alpha\":1.0,\"checked\":0,\"choiceMode\":0,\"clickable\":1,\"customView\":\"\",\"dividerHeight\":1,\"enabled\":1,\"firstDayOfWeek\":1,\"id\":\"linear1\",\"image\":{\"rotate\":0,\"scaleType\":\"CENTER\"},\"indeterminate\":\"false\",\"index\":0,\"layout\":{\"backgroundColor\":16777215,\"gravity\":0,\"height\":-2,\"layoutGravity\":0,\"marginBottom\":0,\"marginLeft\":0,\"marginRight\":0,\"marginTop\":0,\"orientation\":1,\"paddingBottom\":8,\"paddingLeft\":8,\"paddingRight\":8,\"paddingTop\":8,\"weight\":0,\"weightSum\":0,\"width\":-1},\"max\":100,\"parent\":\"vscroll1\",\"parentType\":12,\"preId\":\"linear1\",\"preIndex\":0,\"preParentType\":0,\"progress\":0,\"progressStyle\":\"?android:progressBarStyle\",\"scaleX\":1.0,\"scaleY\":1.0,\"spinnerMode\":1,\"text\":{\"hint\":\"\",\"hintColor\":-10453621,\"imeOption\":0,\"inputType\":1,\"line\":0,\"singleLine\":0,\"text\":\"\",\"textColor\":-16777216,\"textFont\":\"default_font\",\"textSize\":12,\"textType\":0},\"translationX\":0.0,\"translationY\":0.0,\"type\":0}\n{\"adSize\":\"\",\"adUnitId\":\"\",\"alpha\":1.0,\"checked\":0,\"choiceMode\":0,\"clickable\":1,\"customView\":\"\",\"dividerHeight\":1,\"enabled\":1,\"firstDayOfWeek\":1,\"id\":\"textview2\",\"image\":{\"rotate\":0,\"scaleType\":\"CENTER\"},\"indeterminate\":\"false\",\"index\":0,\"layout\":{\"backgroundColor\":16777215,\"gravity\":0,\"height\":-2,\"layoutGravity\":0,\"marginBottom\":0,\"marginLeft\":0,\"marginRight\":0,\"marginTop\":0,\"orientation\":-1,\"paddingBottom\":8,\"paddingLeft\":8,\"paddingRight\":8,\"paddingTop\":8,\"weight\":0,\"weightSum\":0,\"width\":-2},\"max\":100,\"parent\":\"linear1\",\"parentType\":0,\"preId\":\"textview2\",\"preIndex\":0,\"preParentType\":0,\"progress\":0,\"progressStyle\":\"?android:progressBarStyle\",\"scaleX\":1.0,\"scaleY\":1.0,\"spinnerMode\":1,\"text\":{\"hint\":\"\",\"hintColor\":-10453621,\"imeOption\":0,\"inputType\":1,\"line\":0,\"singleLine\":0,\"text\":\"CPU Info\",\"textColor\":-16777216,\"textFont\":\"default_font\",\"textSize\":12,\"textType\":0},\"translationX\":0.0,\"translationY\":0.0,\"type\":4}\n{\"adSize\":\"\",\"adUnitId\":\"\",\"alpha\":1.0,\"checked\":0,\"choiceMode\":0,\"clickable\":1,\"customView\":\"\",\"dividerHeight\":1,\"enabled\":1,\"firstDayOfWeek\":1,\"id\":\"cpuinfo\",\"image\":{\"rotate\":0,\"scaleType\":\"CENTER\"},\"indeterminate\":\"false\",\"index\":1,\"layout\":{\"backgroundColor\":16777215,\"gravity\":0,\"height\":-2,\"layoutGravity\":0,\"marginBottom\":0,\"marginLeft\":0,\"marginRight\":0,\"marginTop\":0,\"orientation\":-1,\"paddingBottom\":8,\"paddingLeft\":8,\"paddingRight\":8,\"paddingTop\":8,\"weight\":0,\"weightSum\":0,\"width\":-2},\"max\":100,\"parent\":\"linear1\",\"parentType\":0,\"preId\":\"\",\"preIndex\":0,\"preParentType\":0,\"progress\":0,\"progressStyle\":\"?android:progressBarStyle\",\"scaleX\":1.0,\"scaleY\":1.0,\"spinnerMode\":1,\"text\":{\"hint\":\"\",\"hintColor\":-10453621,\"imeOption\":0,\"inputType\":1,\"line\":0,\"singleLine\":0,\"text\":\"TextView\",\"textColor\":-16777216,\"textFont\":\"default_font\",\"textSize\":12,\"textType\":0},\"translationX\":0.0,\"translationY\":0.0,\"type\":4}\n{\"adSize\":\"\",\"adUnitId\":\"\",\"alpha\":1.0,\"checked\":0,\"choiceMode\":0,\"clickable\":1,\"customView\":\"\",\"dividerHeight\":1,\"enabled\":1,\"firstDayOfWeek\":1,\"id\":\"linear2\",\"image\":{\"rotate\":0,\"scaleType\":\"CENTER\"},\"indeterminate\":\"false\",\"index\":0,\"layout\":{\"backgroundColor\":16777215,\"gravity\":0,\"height\":-2,\"layoutGravity\":0,\"marginBottom\":0,\"marginLeft\":0,\"marginRight\":0,\"marginTop\":0,\"orientation\":1,\"paddingBottom\":8,\"paddingLeft\":8,\"paddingRight\":8,\"paddingTop\":8,\"weight\":0,\"weightSum\":0,\"width\":-1},\"max\":100,\"parent\":\"vscroll2\",\"parentType\":12,\"preId\":\"linear2\",\"preIndex\":0,\"preParentType\":0,\"progress\":0,\"progressStyle\":\"?android:progressBarStyle\",\"scaleX\":1.0,\"scaleY\":1.0,\"spinnerMode\":1,\"text\":{\"hint\":\"\",\"hintColor\":-10453621,\"imeOption\":0,\"inputType\":1,\"line\":0,\"singleLine\":0,\"text\":\"\",\"textColor\":-16777216,\"textFont\":\"default_font\",\"textSize\":12,\"textType\":0},\"translationX\":0.0,\"translationY\":0.0,\"type\":0}\n{\"adSize\":\"\",\"adUnitId\":\"\",\"alpha\":1.0,\"checked\":0,\"choiceMode\":0,\"clickable\":1,\"customView\":\"\",\"dividerHeight\":1,\"enabled\":1,\"firstDayOfWeek\":1,\"id\":\"textview3\",\"image\":{\"rotate\":0,\"scaleType\":\"CENTER\"},\"indeterminate\":\"false\",\"index\":0,\"layout\":{\"backgroundColor\":16777215,\"gravity\":0,\"height\":-2,\"layoutGravity\":0,\"marginBottom\":0,\"marginLeft\":0,\"marginRight\":0,\"marginTop\":0,\"orientation\":-1,\"paddingBottom\":8,\"paddingLeft\":8,\"paddingRight\":8,\"paddingTop\":8,\"weight\":0,\"weightSum\":0,\"width\":-2},\"max\":100,\"parent\":\"linear2\",\"parentType\":0,\"preId\":\"textview3\",\"preIndex\":0,\"preParentType\":0,\"progress\":0,\"progressStyle\":\"?android:progressBarStyle\",\"scaleX\":1.0,\"scaleY\":1.0,\"spinnerMode\":1,\"text\":{\"hint\":\"\",\"hintColor\":-10453621,\"imeOption\":0,\"inputType\":1,\"line\":0,\"singleLine\":0,\"text\":\"RAM Info\",\"textColor\":-16777216,\"textFont\":\"default_font\",\"textSize\":12,\"textType\":0},\"translationX\":0.0,\"translationY\":0.0,\"type\":4}\n{\"adSize\":\"\",\"adUnitId\":\"\",\"alpha\":1.0,\"checked\":0,\"choiceMode\":0,\"clickable\":1,\"customView\":\"\",\"dividerHeight\":1,\"enabled\":1,\"firstDayOfWeek\":1,\"id\":\"raminfo\",\"image\":{\"rotate\":0,\"scaleType\":\"CENTER\"},\"indeterminate\":\"false\",\"index\":1,\"layout\":{\"backgroundColor\":16777215,\"gravity\":0,\"height\":-2,\"layoutGravity\":0,\"marginBottom\":0,\"marginLeft\":0,\"marginRight\":0,\"marginTop\":0,\"orientation\":-1,\"paddingBottom\":8,\"paddingLeft\":8,\"paddingRight\":8,\"paddingTop\":8,\"weight\":0,\"weightSum\":0,\"width\":-2},\"max\":100,\"parent\":\"linear2\",\"parentType\":0,\"preId\":\"\",\"preIndex\":0,\"preParentType\":0,\"progress\":0,\"progressStyle\":\"?android:progressBarStyle\",\"scaleX\":1.0,\"scaleY\":1.0,\"spinnerMode\":1,\"text\":{\"hint\":\"\",\"hintColor\":-10453621,\"imeOption\":0,\"inputType\":1,\"line\":0,\"singleLine\":0,\"text\":\"TextView\",\"textColor\":-16777216,\"textFont\":\"default_font\",\"textSize\":12,\"textType\":0},\"translationX\":0.0,\"translationY\":0.0,\"type\":4}\n\n@main.xml_fab\n{\"adSize\":\"\",\"adUnitId\":\"\",\"alpha\":1.0,\"checked\":0,\"choiceMode\":0,\"clickable\":1,\"customView\":\"\",\"dividerHeight\":1,\"enabled\":1,\"firstDayOfWeek\":1,\"id\":\"_fab\",\"image\":{\"rotate\":0,\"scaleType\":\"CENTER\"},\"indeterminate\":\"false\",\"index\":0,\"layout\":{\"backgroundColor\":16777215,\"gravity\":0,\"height\":-2,\"layoutGravity\":85,\"marginBottom\":16,\"marginLeft\":16,\"marginRight\":16,\"marginTop\":16,\"orientation\":-1,\"paddingBottom\":0,\"paddingLeft\":0,\"paddingRight\":0,\"paddingTop\":0,\"weight\":0,\"weightSum\":0,\"width\":-2},\"max\":100,\"parentType\":-1,\"preIndex\":0,\"preParentType\":0,\"progress\":0,\"progressStyle\":\"?android:progressBarStyle\",\"scaleX\":1.0,\"scaleY\":1.0,\"spinnerMode\":1,\"text\":{\"hint\":\"\",\"hintColor\":-10453621,\"imeOption\":0,\"inputType\":1,\"line\":0,\"singleLine\":0,\"text\":\"\",\"textColor\":-16777216,\"textFont\":\"default_font\",\"textSize\":12,\"textType\":0},\"translationX\":0.0,\"translationY\":0.0,\"type\":16}")).toOption).map View.reconstruct = some (s% "@main.xml\n{\"adSize\":\"\",\"adUnitId\":\"\",\"alpha\":1.0,\"checked\":0,\"choiceMode\":0,\"clickable\":1,\"customView\":\"\",\"dividerHeight\":1,\"enabled\":1,\"firstDayOfWeek\":1,\"id\":\"vscroll1\",\"image\":{\"rotate\":0,\"scaleType\":\"CENTER\"},\"indeterminate\":\"false\",\"index\":0,\"layout\":{\"backgroundColor\":16777215,\"gravity\":0,\"height\":-2,\"layoutGravity\":0,\"marginBottom\":8,\"marginLeft\":0,\"marginRight\":0,\"marginTop\":0,\"orientation\":-1,\"paddingBottom\":0,\"paddingLeft\":0,\"paddingRight\":0,\"paddingTop\":0,\"weight\":1,\"weightSum\":0,\"width\":-1},\"max\":100,\"parent\":\"root\",\"parentType\":0,\"preId\":\"vscroll1\",\"preIndex\":0,\"preParentType\":0,\"progress\":0,\"progressStyle\":\"?android:progressBarStyle\",\"scaleX\":1.0,\"scaleY\":1.0,\"spinnerMode\":1,\"text\":{\"hint\":\"\",\"hintColor\":-10453621,\"imeOption\":0,\"inputType\":1,\"line\":0,\"singleLine\":0,\"text\":\"\",\"textColor\":-16777216,\"textFont\":\"default_font\",\"textSize\":12,\"textType\":0},\"translationX\":0.0,\"translationY\":0.0,\"type\":12}\n{\"adSize\":\"\",\"adUnitId\":\"\",\"alpha\":1.0,\"checked\":0,\"choiceMode\":0,\"clickable\":1,\"customView\":\"\",\"dividerHeight\":1,\"enabled\":1,\"firstDayOfWeek\":1,\"id\":\"vscroll2\",\"image\":{\"rotate\":0,\"scaleType\":\"CENTER\"},\"indeterminate\":\"false\",\"index\":1,\"layout\":{\"backgroundColor\":16777215,\"gravity\":0,\"height\":-2,\"layoutGravity\":0,\"marginBottom\":0,\"marginLeft\":0,\"marginRight\":0,\"marginTop\":8,\"orientation\":-1,\"paddingBottom\":0,\"paddingLeft\":0,\"paddingRight\":0,\"paddingTop\":0,\"weight\":1,\"weightSum\":0,\"width\":-1},\"max\":100,\"parent\":\"root\",\"parentType\":0,\"preId\":\"vscroll2\",\"preIndex\":0,\"preParentType\":0,\"progress\":0,\"progressStyle\":\"?android:progressBarStyle\",\"scaleX\":1.0,\"scaleY\":1.0,\"spinnerMode\":1,\"text\":{\"hint\":\"\",\"hintColor\":-10453621,\"imeOption\":0,\"inputType\":1,\"line\":0,\"singleLine\":0,\"text\":\"\",\"textColor\":-16777216,\"textFont\":\"default_font\",\"textSize\":12,\"textType\":0},\"translationX\":0.0,\"translationY\":0.0,\"type\":12}\n{\"adSize\":\"\",\"adUnitId\":\"\",\"alpha\":1.0,\"checked\":0,\"choiceMode\":0,\"clickable\":1,\"customView\":\"\",\"dividerHeight\":1,\"enabled\":1,\"firstDayOfWeek\":1,\"id\":\"linear1\",\"image\":{\"rotate\":0,\"scaleType\":\"CENTER\"},\"indeterminate\":\"false\",\"index\":0,\"layout\":{\"backgroundColor\":16777215,\"gravity\":0,\"height\":-2,\"layoutGravity\":0,\"marginBottom\":0,\"marginLeft\":0,\"marginRight\":0,\"marginTop\":0,\"orientation\":1,\"paddingBottom\":8,\"paddingLeft\":8,\"paddingRight\":8,\"paddingTop\":8,\"weight\":0,\"weightSum\":0,\"width\":-1},\"max\":100,\"parent\":\"vscroll1\",\"parentType\":12,\"preId\":\"linear1\",\"preIndex\":0,\"preParentType\":0,\"progress\":0,\"progressStyle\":\"?android:progressBarStyle\",\"scaleX\":1.0,\"scaleY\":1.0,\"spinnerMode\":1,\"text\":{\"hint\":\"\",\"hintColor\":-10453621,\"imeOption\":0,\"inputType\":1,\"line\":0,\"singleLine\":0,\"text\":\"\",\"textColor\":-16777216,\"textFont\":\"default_font\",\"textSize\":12,\"textType\":0},\"translationX\":0.0,\"translationY\":0.0,\"type\":0}\n{\"adSize\":\"\",\"adUnitId\":\"\",\"alpha\":1.0,\"checked\":0,\"choiceMode\":0,\"clickable\":1,\"customView\":\"\",\"dividerHeight\":1,\"enabled\":1,\"firstDayOfWeek\":1,\"id\":\"textview2\",\"image\":{\"rotate\":0,\"scaleType\":\"CENTER\"},\"indeterminate\":\"false\",\"index\":0,\"layout\":{\"backgroundColor\":16777215,\"gravity\":0,\"height\":-2,\"layoutGravity\":0,\"marginBottom\":0,\"marginLeft\":0,\"marginRight\":0,\"marginTop\":0,\"orientation\":-1,\"paddingBottom\":8,\"paddingLeft\":8,\"paddingRight\":8,\"paddingTop\":8,\"weight\":0,\"weightSum\":0,\"width\":-2},\"max\":100,\"parent\":\"linear1\",\"parentType\":0,\"preId\":\"textview2\",\"preIndex\":0,\"preParentType\":0,\"progress\":0,\"progressStyle\":\"?android:progressBarStyle\",\"scaleX\":1.0,\"scaleY\":1.0,\"spinnerMode\":1,\"text\":{\"hint\":\"\",\"hintColor\":-10453621,\"imeOption\":0,\"inputType\":1,\"line\":0,\"singleLine\":0,\"text\":\"CPU Info\",\"textColor\":-16777216,\"textFont\":\"default_font\",\"textSize\":12,\"textType\":0},\"translationX\":0.0,\"translationY\":0.0,\"type\":4}\n{\"adSize\":\"\",\"adUnitId\":\"\",\"alpha\":1.0,\"checked\":0,\"choiceMode\":0,\"clickable\":1,\"customView\":\"\",\"dividerHeight\":1,\"enabled\":1,\"firstDayOfWeek\":1,\"id\":\"cpuinfo\",\"image\":{\"rotate\":0,\"scaleType\":\"CENTER\"},\"indeterminate\":\"false\",\"index\":1,\"layout\":{\"backgroundColor\":16777215,\"gravity\":0,\"height\":-2,\"layoutGravity\":0,\"marginBottom\":0,\"marginLeft\":0,\"marginRight\":0,\"marginTop\":0,\"orientation\":-1,\"paddingBottom\":8,\"paddingLeft\":8,\"paddingRight\":8,\"paddingTop\":8,\"weight\":0,\"weightSum\":0,\"width\":-2},\"max\":100,\"parent\":\"linear1\",\"parentType\":0,\"preId\":\"\",\"preIndex\":0,\"preParentType\":0,\"progress\":0,\"progressStyle\":\"?android:progressBarStyle\",\"scaleX\":1.0,\"scaleY\":1.0,\"spinnerMode\":1,\"text\":{\"hint\":\"\",\"hintColor\":-10453621,\"imeOption\":0,\"inputType\":1,\"line\":0,\"singleLine\":0,\"text\":\"TextView\",\"textColor\":-16777216,\"textFont\":\"default_font\",\"textSize\":12,\"textType\":0},\"translationX\":0.0,\"translationY\":0.0,\"type\":4}\n{\"adSize\":\"\",\"adUnitId\":\"\",\"alpha\":1.0,\"checked\":0,\"choiceMode\":0,\"clickable\":1,\"customView\":\"\",\"dividerHeight\":1,\"enabled\":1,\"firstDayOfWeek\":1,\"id\":\"linear2\",\"image\":{\"rotate\":0,\"scaleType\":\"CENTER\"},\"indeterminate\":\"false\",\"index\":0,\"layout\":{\"backgroundColor\":16777215,\"gravity\":0,\"height\":-2,\"layoutGravity\":0,\"marginBottom\":0,\"marginLeft\":0,\"marginRight\":0,\"marginTop\":0,\"orientation\":1,\"paddingBottom\":8,\"paddingLeft\":8,\"paddingRight\":8,\"paddingTop\":8,\"weight\":0,\"weightSum\":0,\"width\":-1},\"max\":100,\"parent\":\"vscroll2\",\"parentType\":12,\"preId\":\"linear2\",\"preIndex\":0,\"preParentType\":0,\"progress\":0,\"progressStyle\":\"?android:progressBarStyle\",\"scaleX\":1.0,\"scaleY\":1.0,\"spinnerMode\":1,\"text\":{\"hint\":\"\",\"hintColor\":-10453621,\"imeOption\":0,\"inputType\":1,\"line\":0,\"singleLine\":0,\"text\":\"\",\"textColor\":-16777216,\"textFont\":\"default_font\",\"textSize\":12,\"textType\":0},\"translationX\":0.0,\"translationY\":0.0,\"type\":0}\n{\"adSize\":\"\",\"adUnitId\":\"\",\"alpha\":1.0,\"checked\":0,\"choiceMode\":0,\"clickable\":1,\"customView\":\"\",\"dividerHeight\":1,\"enabled\":1,\"firstDayOfWeek\":1,\"id\":\"textview3\",\"image\":{\"rotate\":0,\"scaleType\":\"CENTER\"},\"indeterminate\":\"false\",\"index\":0,\"layout\":{\"backgroundColor\":16777215,\"gravity\":0,\"height\":-2,\"layoutGravity\":0,\"marginBottom\":0,\"marginLeft\":0,\"marginRight\":0,\"marginTop\":0,\"orientation\":-1,\"paddingBottom\":8,\"paddingLeft\":8,\"paddingRight\":8,\"paddingTop\":8,\"weight\":0,\"weightSum\":0,\"width\":-2},\"max\":100,\"parent\":\"linear2\",\"parentType\":0,\"preId\":\"textview3\",\"preIndex\":0,\"preParentType\":0,\"progress\":0,\"progressStyle\":\"?android:progressBarStyle\",\"scaleX\":1.0,\"scaleY\":1.0,\"spinnerMode\":1,\"text\":{\"hint\":\"\",\"hintColor\":-10453621,\"imeOption\":0,\"inputType\":1,\"line\":0,\"singleLine\":0,\"text\":\"RAM Info\",\"textColor\":-16777216,\"textFont\":\"default_font\",\"textSize\":12,\"textType\":0},\"translationX\":0.0,\"translationY\":0.0,\"type\":4}\n{\"adSize\":\"\",\"adUnitId\":\"\",\"alpha\":1.0,\"checked\":0,\"choiceMode\":0,\"clickable\":1,\"customView\":\"\",\"dividerHeight\":1,\"enabled\":1,\"firstDayOfWeek\":1,\"id\":\"raminfo\",\"image\":{\"rotate\":0,\"scaleType\":\"CENTER\"},\"indeterminate\":\"false\",\"index\":1,\"layout\":{\"backgroundColor\":16777215,\"gravity\":0,\"height\":-2,\"layoutGravity\":0,\"marginBottom\":0,\"marginLeft\":0,\"marginRight\":0,\"marginTop\":0,\"orientation\":-1,\"paddingBottom\":8,\"paddingLeft\":8,\"paddingRight\":8,\"paddingTop\":8,\"weight\":0,\"weightSum\":0,\"width\":-2},\"max\":100,\"parent\":\"linear2\",\"parentType\":0,\"preId\":\"\",\"preIndex\":0,\"preParentType\":0,\"progress\":0,\"progressStyle\":\"?android:progressBarStyle\",\"scaleX\":1.0,\"scaleY\":1.0,\"spinnerMode\":1,\"text\":{\"hint\":\"\",\"hintColor\":-10453621,\"imeOption\":0,\"inputType\":1,\"line\":0,\"singleLine\":0,\"text\":\"TextView\",\"textColor\":-16777216,\"textFont\":\"default_font\",\"textSize\":12,\"textType\":0},\"translationX\":0.0,\"translationY\":0.0,\"type\":4}\n\n@main.xml_fab\n{\"adSize\":\"\",\"adUnitId\":\"\",\"alpha\":1.0,\"checked\":0,\"choiceMode\":0,\"clickable\":1,\"customView\":\"\",\"dividerHeight\":1,\"enabled\":1,\"firstDayOfWeek\":1,\"id\":\"_fab\",\"image\":{\"rotate\":0,\"scaleType\":\"CENTER\"},\"indeterminate\":\"false\",\"index\":0,\"layout\":{\"backgroundColor\":16777215,\"gravity\":0,\"height\":-2,\"layoutGravity\":85,\"marginBottom\":16,\"marginLeft\":16,\"marginRight\":16,\"marginTop\":16,\"orientation\":-1,\"paddingBottom\":0,\"paddingLeft\":0,\"paddingRight\":0,\"paddingTop\":0,\"weight\":0,\"weightSum\":0,\"width\":-2},\"max\":100,\"parentType\":-1,\"preIndex\":0,\"preParentType\":0,\"progress\":0,\"progressStyle\":\"?android:progressBarStyle\",\"scaleX\":1.0,\"scaleY\":1.0,\"spinnerMode\":1,\"text\":{\"hint\":\"\",\"hintColor\":-10453621,\"imeOption\":0,\"inputType\":1,\"line\":0,\"singleLine\":0,\"text\":\"\",\"textColor\":-16777216,\"textFont\":\"default_font\",\"textSize\":12,\"textType\":0},\"translationX\":0.0,\"translationY\":0.0,\"type\":16}") := by decide +kernel


end Swrs.Conformance.View
